import Verif.MergeStmt.Lemmas2
import Verif.Answer.PropsMore
/- C60: the lines a merged query answers. -/
set_option autoImplicit false
namespace ML
open Spec

/-! ### The formula of a merged metric -/

theorem strictEach_replace (value : List Char → Res (List Char)) (ns : List (List Char)) (text : List Char) (h : "TABLE".toList ∉ ns) :
    strictEach value ns text = replaceEach value ns text := by
  induction ns generalizing text with
  | nil => rfl
  | cons n ns ih =>
    rw [strictEach, replaceEach, if_neg (fun e => h (by rw [e]; simp))]
    cases value n with
    | error e => rfl
    | ok v => exact ih _ (fun c => h (List.mem_cons_of_mem _ c))

theorem strict_formula (get : String → List Char → Res SMetric) (pieces : SMetric → List Piece)
    (hget : ∀ v m g, get v m = .ok g → OrdinaryMetric pieces g) (n : ℕ) : ∀ f, OrdinaryMetric pieces f →
    (strictSql get n f).toOption = formulaText get pieces n f ∧ ∀ t, formulaText get pieces n f = some t → '{' ∉ t := by
  induction n with
  | zero => intro f _; exact ⟨rfl, fun t ht => by cases ht⟩
  | succ n ih =>
    intro f hf
    set value : List Char → Res (List Char) := fun name =>
      match get f.view name with
      | .error e => .error e
      | .ok g =>
        if g.formula then
          match strictSql get n g with
          | .error e => .error e
          | .ok t => .ok ('(' :: t ++ [')'])
        else .ok g.column.toList with hvalue
    set value' : List Char → Option (List Char) := fun name =>
      match get f.view name with
      | .error _ => none
      | .ok g => if g.formula then (formulaText get pieces n g).map (fun t => '(' :: t ++ [')']) else some g.column.toList with hvalue'
    have hvv : ∀ m, (value m).toOption = value' m := by
      intro m
      rw [hvalue, hvalue']
      simp only
      cases hg : get f.view m with
      | error e => rfl
      | ok g =>
        simp only
        cases hfm : g.formula with
        | false => rfl
        | true =>
          simp only [if_true]
          rw [← (ih g (hget _ _ _ hg)).1]
          cases strictSql get n g <;> rfl
    have hbr : ∀ m t, value' m = some t → '{' ∉ t := by
      intro m t
      rw [hvalue']
      simp only
      cases hg : get f.view m with
      | error e => intro h; cases h
      | ok g =>
        simp only
        cases hfm : g.formula with
        | false =>
          simp only [Bool.false_eq_true, if_false, Option.some.injEq]
          rintro rfl
          exact (hget _ _ _ hg).column
        | true =>
          simp only [if_true]
          intro h
          obtain ⟨t', ht', rfl⟩ := Option.map_eq_some_iff.mp h
          have := (ih g (hget _ _ _ hg)).2 t' ht'
          simp [this]
    have hexp : formulaText get pieces (n + 1) f = if (refNames (pieces f)).any (fun m => (value' m).isNone) then none
        else some (strip (fill (fun m => (value' m).getD []) (pieces f))) := rfl
    have hraw : strictSql get (n + 1) f = (match strictEach value (fieldsToReplace f.sql) f.sql with
        | .error e => .error e
        | .ok t => .ok (strip t)) := rfl
    have hord := (ordinary_iff _).mp hf.ordinary
    rw [hexp, hraw, hf.text, fieldsToReplace_render _ hord, strictEach_replace _ _ _ hf.noTable]
    have hgn := refNames_good _ hord
    cases hany : (refNames (pieces f)).any (fun m => (value' m).isNone) with
    | true =>
      simp only [if_true]
      refine ⟨?_, fun t ht => by cases ht⟩
      obtain ⟨m, hm, hmn⟩ := List.any_eq_true.mp hany
      rw [Option.isNone_iff_eq_none, ← hvv] at hmn
      cases hvm : value m with
      | ok v => rw [hvm] at hmn; cases hmn
      | error e =>
        obtain ⟨e', he'⟩ := replaceEach_error value _ (render (pieces f)) m e hm hvm
        rw [he']; rfl
    | false =>
      simp only [Bool.false_eq_true, if_false]
      have hall : ∀ m ∈ refNames (pieces f), GoodName m ∧ value m = .ok ((value' m).getD []) ∧ '{' ∉ (value' m).getD [] := by
        intro m hm
        have h1 := List.any_eq_false.mp hany m hm
        simp only [Option.isNone_iff_eq_none] at h1
        cases hv' : value' m with
        | none => exact absurd hv' h1
        | some w =>
          refine ⟨hgn m hm, ?_, hbr m w hv'⟩
          have := hvv m
          rw [hv'] at this
          cases hvm : value m with
          | error e => rw [hvm] at this; cases this
          | ok w' => rw [hvm] at this; injection this with this; rw [← this]; rfl
      have hrep := replaceEach_ok value (fun m => (value' m).getD []) (refNames (pieces f)) (pieces f) hord hall
      rw [fill_app _ _ _ (fun n hn => hn)] at hrep
      rw [hrep]
      refine ⟨rfl, ?_⟩
      intro t ht
      injection ht with ht
      subst ht
      intro hc
      exact fill_no_brace _ _ hord (fun m hm => (hall m hm).2.2) (strip_subset _ _ hc)

/-- C60 (a): the SQL of a merged metric is its formula, to any depth: a reference to a metric that is a formula becomes that formula in
parentheses, any other reference the column of the metric; and it fails exactly when a reference leads nowhere. -/
theorem C60_formula (get : String → List Char → Res SMetric) (pieces : SMetric → List Piece)
    (hget : ∀ v m g, get v m = .ok g → OrdinaryMetric pieces g) (n : ℕ) (f : SMetric) (hf : OrdinaryMetric pieces f) :
    (strictSql get n f).toOption = formulaText get pieces n f :=
  (strict_formula get pieces hget n f hf).1

/-- C60: `${TABLE}.` in a formula, which the statement above leaves out, is dropped with its dot: a column named with it stands alone, in the merged query as in the
text, while other references are replaced. A `${TABLE}` without a dot stays in the text. -/
theorem C60_table (view column : String) (get : String → List Char → Res SMetric)
    (hget : get view "revenue".toList = .ok ⟨"orders", "orders_revenue", false, []⟩) :
    strictSql get 1 ⟨view, column, true, "${TABLE}.price + ${revenue}".toList⟩ = .ok "price + orders_revenue".toList ∧
    strictSql get 1 ⟨view, column, true, "${TABLE} + ${revenue}".toList⟩ = .ok "${TABLE} + orders_revenue".toList := by
  have h3 : "revenue".toList ≠ "TABLE".toList := by decide +kernel
  have key : ∀ t r : List Char, fieldsToReplace t = ["TABLE".toList, "revenue".toList] →
      strip (replaceAll (refText "revenue".toList) "orders_revenue".toList (replaceAll (refText "TABLE".toList ++ ['.']) [] t)) = r →
      strictSql get 1 ⟨view, column, true, t⟩ = .ok r := by
    intro t r ht hr
    rw [← hr]
    simp only [strictSql, ht, strictEach, if_true, if_neg h3, hget, Bool.false_eq_true, if_false]
  exact ⟨key _ _ (by decide +kernel) (by decide +kernel), key _ _ (by decide +kernel) (by decide +kernel)⟩

/-! ### Filters -/

mutual
theorem meaning_congr (v v' : ℕ → TV) (f : FObj) (h : ∀ l ∈ leaves f, ∀ i ∈ l.first :: l.rest, v i = v' i) :
    meaning v f = meaning v' f := by
  cases f with
  | leaf l =>
    rw [meaning, meaning]
    congr 1
    exact List.map_congr_left (fun i hi => h l (by simp [leaves]) i hi)
  | group op cs =>
    rw [meaning, meaning, meanings_congr v v' cs (by simpa [leaves] using h)]
  | list cs => simp [meaning]
  | other => simp [meaning]
theorem meanings_congr (v v' : ℕ → TV) (fs : List FObj) (h : ∀ l ∈ leavesList fs, ∀ i ∈ l.first :: l.rest, v i = v' i) :
    meanings v fs = meanings v' fs := by
  cases fs with
  | nil => simp [meanings]
  | cons f fs =>
    rw [meanings, meanings, meaning_congr v v' f (fun l hl => h l (by simp [leavesList, hl])),
      meanings_congr v v' fs (fun l hl => h l (by simp [leavesList, hl]))]
end

section
variable {V : Type} [DecidableEq V]

/-- The parts of a merged statement. -/
theorem mergedStatement_ok {get : String → List Char → Res SMetric} {lookup : String → Res SMetric} {depth : ℕ} {d : MergedDef} {s : MStmt}
    (hs : mergedStatement get lookup depth d = .ok s) :
    s.src = d.src ∧ s.tables = d.src.hashes.map (fun h => (h, subColumns d h)) ∧ mergedSelect get depth d = .ok s.select ∧
      clauseText (d.having.map QFilter.json) = .ok s.whereText ∧ s.cond = conditionColumn lookup d ∧
      s.limit = limitClause d.src.warehouse d.limit ∧ (∃ js, mergeFrom d.src = .ok js) ∧
      checkColumns (conditionColumn lookup d) (clauseComparisons s.whereText) = .ok () := by
  unfold mergedStatement at hs
  cases h1 : mergeFrom d.src with
  | error e => rw [h1] at hs; cases hs
  | ok js =>
    rw [h1] at hs
    simp only at hs
    cases h2 : mergedSelect get depth d with
    | error e => rw [h2] at hs; cases hs
    | ok sel =>
      rw [h2] at hs
      simp only at hs
      cases h3 : clauseText (d.having.map QFilter.json) with
      | error e => rw [h3] at hs; cases hs
      | ok wt =>
        rw [h3] at hs
        simp only at hs
        cases h4 : checkColumns (conditionColumn lookup d) (clauseComparisons wt) with
        | error e => rw [h4] at hs; cases hs
        | ok u =>
          rw [h4] at hs
          simp only [Except.ok.injEq] at hs
          subst hs
          exact ⟨rfl, rfl, rfl, rfl, rfl, rfl, ⟨js, rfl⟩, h4⟩

/-- The columns of the statement. -/
theorem mergedSelect_spec {get : String → List Char → Res SMetric} {depth : ℕ} {d : MergedDef} {sel : List (MSel × String)}
    (h : mergedSelect get depth d = .ok sel) :
    ∃ ds, dimensionSql d.src = .ok ds ∧
      (∀ c ∈ sel, (∃ p ∈ metricColumns d.metrics, c = (.expr p.2, p.1)) ∨ (∃ p ∈ ds, c = (.expr p.2, p.1)) ∨
        ∃ m ∈ d.merged, ∃ t, strictSql get depth m = .ok t ∧ c = (.formula t, m.column)) ∧
      (∀ p ∈ metricColumns d.metrics, (MSel.expr p.2, p.1) ∈ sel) ∧ (∀ p ∈ ds, (MSel.expr p.2, p.1) ∈ sel) ∧
      (∀ m ∈ d.merged, ∃ c ∈ sel, c.2 = m.column) ∧
      (((metricColumns d.metrics).map (·.1) ++ ds.map (·.1)).Nodup → (sel.map (·.2)).Nodup) ∧
      ∀ m ∈ d.merged, m.column ∉ (metricColumns d.metrics).map (·.1) → m.column ∉ ds.map (·.1) →
        (∀ m' ∈ d.merged, m'.column = m.column → m' = m) → ∃ t, strictSql get depth m = .ok t ∧ (.formula t, m.column) ∈ sel := by
  unfold mergedSelect at h
  cases hd : dimensionSql d.src with
  | error e => rw [hd] at h; cases h
  | ok ds =>
    rw [hd] at h
    simp only at h
    obtain ⟨h1, h2, h3, h4, h5⟩ := mergedColumns_spec get depth d.merged _ sel h
    have hmap : (((metricColumns d.metrics).map (fun p => (MSel.expr p.2, p.1)) ++ ds.map (fun p => (MSel.expr p.2, p.1))).map (·.2)) =
        (metricColumns d.metrics).map (·.1) ++ ds.map (·.1) := by
      rw [List.map_append, List.map_map, List.map_map]
      rfl
    refine ⟨ds, rfl, ?_, ?_, ?_, h3, ?_, ?_⟩
    · intro c hc
      rcases h1 c hc with h | h
      · rcases List.mem_append.mp h with h | h
        · obtain ⟨p, hp, rfl⟩ := List.mem_map.mp h
          exact .inl ⟨p, hp, rfl⟩
        · obtain ⟨p, hp, rfl⟩ := List.mem_map.mp h
          exact .inr (.inl ⟨p, hp, rfl⟩)
      · exact .inr (.inr h)
    · intro p hp
      exact h2 _ (List.mem_append.mpr (.inl (List.mem_map.mpr ⟨p, hp, rfl⟩)))
    · intro p hp
      exact h2 _ (List.mem_append.mpr (.inr (List.mem_map.mpr ⟨p, hp, rfl⟩)))
    · intro hn
      exact h4 (by rw [hmap]; exact hn)
    · intro m hm hn1 hn2 hu
      refine h5 m hm ?_ hu
      rw [hmap, List.mem_append, not_or]
      exact ⟨hn1, hn2⟩

/-- C60 (b): the columns of the answer are the metrics of the sub-queries, the dimensions and the merged metrics; each is there, no other is,
and no column occurs twice. -/
theorem C60_columns (get : String → List Char → Res SMetric) (lookup : String → Res SMetric) (depth : ℕ) (d : MergedDef) (s : MStmt)
    (hs : mergedStatement get lookup depth d = .ok s) (ha : MetricsApart d) :
    (s.select.map (·.2)).Nodup ∧ ∀ a, a ∈ s.select.map (·.2) ↔
      (∃ p ∈ d.metrics, a ∈ p.2) ∨ (∃ q ∈ d.src.dims, ∃ f ∈ q.2, f.column = a) ∨ ∃ m ∈ d.merged, m.column = a := by
  obtain ⟨-, -, hsel, -⟩ := mergedStatement_ok hs
  obtain ⟨ds, hds, h1, h2, h3, h4, h5, -⟩ := mergedSelect_spec hsel
  obtain ⟨m1, m2, m3⟩ := metricColumns_spec d.metrics
  obtain ⟨k1, k2⟩ := dimensionSqlGo_keys d.src _ _ ds hds
  have hdim : ∀ a, a ∈ ds.map (·.1) ↔ ∃ q ∈ d.src.dims, ∃ f ∈ q.2, f.column = a := by
    intro a
    rw [k1 a]
    constructor
    · rintro (h | ⟨⟨h, f⟩, hp, e⟩)
      · simp at h
      · obtain ⟨l, hl, hf⟩ := (mem_dimensionOrder d.src h f).mp hp
        exact ⟨_, hl, f, hf, e⟩
    · rintro ⟨q, hq, f, hf, e⟩
      exact .inr ⟨(q.1, f), (mem_dimensionOrder d.src q.1 f).mpr ⟨q.2, hq, hf⟩, e⟩
  constructor
  · apply h5
    rw [List.nodup_append]
    refine ⟨m3, k2 (by simp), ?_⟩
    intro a hma b hdb e
    subst e
    obtain ⟨p, hp, rfl⟩ := List.mem_map.mp hma
    obtain ⟨q, hq, hpq, -⟩ := m1 p hp
    obtain ⟨q', hq', f, hf, e⟩ := (hdim _).mp hdb
    exact ha.noDimension q hq _ hpq q' hq' f hf e
  · intro a
    constructor
    · intro h
      obtain ⟨c, hc, rfl⟩ := List.mem_map.mp h
      rcases h1 c hc with ⟨p, hp, rfl⟩ | ⟨p, hp, rfl⟩ | ⟨m, hm, t, -, rfl⟩
      · obtain ⟨q, hq, hpq, -⟩ := m1 p hp
        exact .inl ⟨q, hq, hpq⟩
      · exact .inr (.inl ((hdim _).mp (List.mem_map.mpr ⟨p, hp, rfl⟩)))
      · exact .inr (.inr ⟨m, hm, rfl⟩)
    · rintro (⟨q, hq, haq⟩ | h | ⟨m, hm, rfl⟩)
      · obtain ⟨p, hp, rfl⟩ := m2 q hq a haq
        exact List.mem_map.mpr ⟨_, h2 p hp, rfl⟩
      · obtain ⟨p, hp, rfl⟩ := List.mem_map.mp ((hdim a).mpr h)
        exact List.mem_map.mpr ⟨_, h3 p hp, rfl⟩
      · obtain ⟨c, hc, e⟩ := h4 m hm
        exact List.mem_map.mpr ⟨c, hc, e⟩

/-- The value of a formula is computed from the metrics of the combination. -/
theorem formula_value {d : MergedDef} (hn : d.src.hashes.Nodup) (ha : MetricsApart d) (W : MWarehouse V) {db : String → List (MRow V)}
    {k : List V} {row : JRow (MRow V)} (hcar : Carries d.src db k row) {t : List Char}
    (hnames : ∀ c ∈ W.names t, ∃ p ∈ d.metrics, c ∈ p.2) :
    W.compute t (nameValue (d.src.hashes.map (fun h => (h, subColumns d h))) row) = W.compute t (metricAt d db k) := by
  apply W.reads
  intro c hc
  obtain ⟨p, hp, hcp⟩ := hnames c hc
  exact name_metric hn ha hcar hp hcp

theorem forall₂_filter_pair {α β : Type} {R : α → β → Prop} {l : List α} {l' : List β} (h : List.Forall₂ R l l') (p : α → Bool) (q : β → Bool)
    (hpq : ∀ a b, R a b → p a = q b) : List.Forall₂ R (l.filter p) (l'.filter q) := by
  induction h with
  | nil => exact .nil
  | @cons a b l l' hab _ ih =>
    rw [List.filter_cons, List.filter_cons, hpq a b hab]
    cases q b with
    | true => exact .cons hab ih
    | false => exact ih

omit [DecidableEq V] in
theorem limited_to (w : Warehouse) (limit : Option ℕ) (lines : List (List (Option V)))
    (hz : limit ≠ some 0 ∨ w ≠ .sqlServer ∧ w ≠ .azureSynapse) :
    LimitedTo limit lines (match limitClause w limit with | none => lines | some n => lines.take n) := by
  have : limitClause w limit = limit := by
    unfold limitClause
    cases w <;> first
      | rfl
      | (rcases hz with hz | hz
         · simp [hz]
         · simp at hz)
  rw [this]
  cases limit with
  | none => rfl
  | some n => exact ⟨List.take_prefix _ _, List.length_take⟩

/-- The lines of the statement, given its rows and what the dimension columns show on them. -/
theorem merged_lines (get : String → List Char → Res SMetric) (lookup : String → Res SMetric) (depth : ℕ) (pieces : SMetric → List Piece)
    (hget : ∀ v m g, get v m = .ok g → OrdinaryMetric pieces g) (d : MergedDef) (hm : ∀ m ∈ d.merged, OrdinaryMetric pieces m)
    (s : MStmt) (hs : mergedStatement get lookup depth d = .ok s) (db : String → List (MRow V)) (hnodup : d.src.hashes.Nodup)
    (rows : List (JRow (MRow V))) (ks : List (List V)) (hrows' : mergedRows d.src db = .ok rows)
    (hall : List.Forall₂ (fun k row => About d.src k row ∧ Carries d.src db k row) ks rows) (hnd : ks.Nodup)
    (hks : ∀ k, k ∈ ks ↔ ∃ h ∈ d.src.hashes, PresentIn d.src db k h) (W : MWarehouse V)
    (hdim : ∀ ds, dimensionSql d.src = .ok ds → ∀ row ∈ rows, ∀ k, About d.src k row → ∀ p ∈ ds,
      Shows W (formulaText get pieces depth) d db k p.1 (p.2.eval row))
    (ha : MetricsApart d) (hma : MergedApart d)
    (hnames : ∀ m ∈ d.merged, ∀ t, formulaText get pieces depth m = some t → ∀ c ∈ W.names t, ∃ p ∈ d.metrics, c ∈ p.2)
    (hwf : WellFormedFilters d.having) (hon : OnMetrics (fun i => (lookup (d.fieldOf i)).map SMetric.column) d)
    (hz : d.limit ≠ some 0 ∨ d.src.warehouse ≠ .sqlServer ∧ d.src.warehouse ≠ .azureSynapse)
    (out : List (List (Option V))) (hans : s.Answers W db out) :
    ∃ (ks : List (List V)) (line : List V → List (Option V)) (lines : List (List (Option V))), ks.Nodup ∧
      (∀ k, k ∈ ks ↔ (∃ h ∈ d.src.hashes, PresentIn d.src db k h) ∧
        PassesFilters W (formulaText get pieces depth) (fun i => (lookup (d.fieldOf i)).map SMetric.column) d db k) ∧
      (∀ k ∈ ks, List.Forall₂ (Shows W (formulaText get pieces depth) d db k) (s.select.map (·.2)) (line k)) ∧
      lines.Perm (ks.map line) ∧ LimitedTo d.limit lines out := by
  classical
  obtain ⟨e1, e2, hsel, hwt, e3, e4, -, -⟩ := mergedStatement_ok hs
  obtain ⟨ds, hds, c1, -, -, -, -, c6⟩ := mergedSelect_spec hsel
  obtain ⟨rows', kept, lines, hrows, hknown, hcmp, hkeep, hperm, hout⟩ := hans
  rw [e1, hrows'] at hrows
  injection hrows with hrows
  subst hrows
  have htext : ∀ m ∈ d.merged, ∀ t, strictSql get depth m = .ok t → formulaText get pieces depth m = some t := by
    intro m hmm t ht
    rw [← C60_formula get pieces hget depth m (hm m hmm), ht]
    rfl
  have hform : ∀ k row, Carries d.src db k row → ∀ m ∈ d.merged, ∀ t, strictSql get depth m = .ok t →
      W.compute t (nameValue s.tables row) = W.compute t (metricAt d db k) := by
    intro k row hcar m hmm t ht
    rw [e2]
    exact formula_value hnodup ha W hcar (hnames m hmm t (htext m hmm t ht))
  -- what a column shows
  have hshow : ∀ k, ∀ row ∈ rows, About d.src k row → Carries d.src db k row → ∀ c ∈ s.select,
      Shows W (formulaText get pieces depth) d db k c.2 (c.1.eval W s.tables row) := by
    intro k row hrow hab hcar c hc
    rcases c1 c hc with ⟨p, hp, rfl⟩ | ⟨p, hp, rfl⟩ | ⟨m, hmm, t, ht, rfl⟩
    · obtain ⟨q, hq, hpq, he⟩ := (metricColumns_spec d.metrics).1 p hp
      simp only [MSel.eval, he, MExpr.eval]
      rw [metric_column ha hcar hq hpq]
      exact .metric q p.1 hq hpq
    · exact hdim ds hds row hrow k hab p hp
    · simp only [MSel.eval]
      rw [hform k row hcar m hmm t ht]
      exact .merged m t hmm (htext m hmm t ht)
  -- the filters
  have hcomp : clauseComparisons s.whereText = (leavesList d.having).flatMap (fun l => l.first :: l.rest) := by
    have := clause_atoms d.having [] s.whereText hwt
    simpa using this
  have htruth : ∀ k row, Carries d.src db k row → ∀ i ∈ clauseComparisons s.whereText, s.truth W row i =
      (match (lookup (d.fieldOf i)).map SMetric.column with
        | .error _ => TV.u
        | .ok c => W.test i (metricValueAt W (formulaText get pieces depth) d db k c)) := by
    intro k row hcar i hi
    have hne := hcmp i hi
    rw [hcomp] at hi
    obtain ⟨l, hl, hil⟩ := List.mem_flatMap.mp hi
    unfold MStmt.truth
    unfold MStmt.compared at hne ⊢
    rw [e3] at hne ⊢
    have hcc : conditionColumn lookup d i = (lookup (d.fieldOf i)).map SMetric.column := rfl
    rw [hcc] at hne ⊢
    cases hlk : (lookup (d.fieldOf i)).map SMetric.column with
    | error e => rfl
    | ok c =>
      rw [hlk] at hne
      simp only at hne ⊢
      rcases hon l hl i hil c hlk with ⟨p, hp, hcp⟩ | ⟨m, hmm, hmc⟩
      · rw [e2, resolve_metric hnodup ha hp hcp]
        simp only [MSel.eval, MExpr.eval]
        rw [metric_column ha hcar hp hcp]
        have : d.merged.find? (fun m => m.column = c) = none := by
          rw [List.find?_eq_none]
          intro m hmm hx
          rw [decide_eq_true_eq] at hx
          exact hma.noMetric m hmm p hp (hx ▸ hcp)
        unfold metricValueAt
        rw [this]
      · have hres : ownerOf s.tables c = none := by
          rw [e2]
          unfold ownerOf
          have : (d.src.hashes.map (fun h => (h, subColumns d h))).filter (fun p => decide (c ∈ p.2)) = [] := by
            rw [List.filter_eq_nil_iff]
            intro p hp
            obtain ⟨h, -, rfl⟩ := List.mem_map.mp hp
            rw [decide_eq_true_eq]
            unfold subColumns
            rw [List.mem_append]
            rintro (hx | hx)
            · cases hgd : dictGet d.src.dims h with
              | none => rw [hgd] at hx; simp at hx
              | some l =>
                rw [hgd] at hx
                obtain ⟨f, hf, e⟩ := List.mem_map.mp hx
                exact hma.noDimension m hmm _ (dictGet_mem hgd) f hf (e.trans hmc.symm)
            · cases hgd : dictGet d.metrics h with
              | none => rw [hgd] at hx; simp at hx
              | some l =>
                rw [hgd] at hx
                exact hma.noMetric m hmm _ (dictGet_mem hgd) (hmc ▸ hx)
          rw [this]
        rw [hres] at hne ⊢
        simp only at hne ⊢
        cases hsw : W.selectInWhere with
        | false => rw [hsw] at hne; exact absurd rfl hne
        | true =>
          rw [hsw] at hne
          simp only [if_true] at hne ⊢
          obtain ⟨t, ht, hin⟩ := c6 m hmm (by
              intro hx
              obtain ⟨p, hp, e⟩ := List.mem_map.mp hx
              obtain ⟨q, hq, hpq, -⟩ := (metricColumns_spec d.metrics).1 p hp
              exact hma.noMetric m hmm q hq (e ▸ hpq)) (by
              intro hx
              obtain ⟨⟨h, f⟩, hp, e⟩ := (((dimensionSqlGo_keys d.src _ _ ds hds).1 m.column).mp hx).resolve_left (by simp)
              obtain ⟨l, hl, hf⟩ := (mem_dimensionOrder d.src h f).mp hp
              exact hma.noDimension m hmm _ hl f hf e) (fun m' hm' e => hma.once m' hm' m hmm e)
          have hfind : s.select.find? (fun p => p.2 = c) = some (.formula t, c) := by
            cases hf : s.select.find? (fun p => decide (p.2 = c)) with
            | none =>
              have := List.find?_eq_none.mp hf _ hin
              simp [hmc] at this
            | some q =>
              have hq2 := List.find?_some hf
              rw [decide_eq_true_eq] at hq2
              have hqm := List.mem_of_find?_eq_some hf
              have hnd2 := (C60_columns get lookup depth d s hs ha).1
              have : q = (.formula t, m.column) := List.inj_on_of_nodup_map hnd2 hqm hin (by rw [hq2]; exact hmc.symm)
              rw [this, hmc]
          rw [hfind]
          simp only [Option.map_some, MSel.eval]
          rw [hform k row hcar m hmm t ht]
          have hmf : d.merged.find? (fun m => m.column = c) = some m := by
            cases hf : d.merged.find? (fun m => decide (m.column = c)) with
            | none =>
              have := List.find?_eq_none.mp hf m hmm
              simp [hmc] at this
            | some m' =>
              have hm2 := List.find?_some hf
              rw [decide_eq_true_eq] at hm2
              rw [hma.once m' (List.mem_of_find?_eq_some hf) m hmm (by rw [hm2, hmc])]
          unfold metricValueAt
          rw [hmf]
          simp only
          rw [htext m hmm t ht, Option.bind_some]
  have hpass : ∃ p : JRow (MRow V) → Bool, kept = rows.filter p ∧ ∀ k row, Carries d.src db k row →
      (p row = true ↔ PassesFilters W (formulaText get pieces depth) (fun i => (lookup (d.fieldOf i)).map SMetric.column) d db k) := by
    unfold MStmt.Keeps at hkeep
    cases hhv : d.having with
    | nil =>
      rw [hhv] at hwt
      simp only [List.map_nil, clauseText, Except.ok.injEq] at hwt
      rw [← hwt] at hkeep
      refine ⟨fun _ => true, by simpa using hkeep, fun k row _ => ?_⟩
      unfold PassesFilters
      rw [hhv]
      simp [meanings]
    | cons f fs =>
      obtain ⟨ts, e, ht, hr, hv⟩ := C04_clause_meaning d.having (by rw [hhv]; simp) hwf
      rw [hwt] at ht
      injection ht with ht
      rw [ht] at hkeep
      obtain ⟨e', hr', hk⟩ := hkeep
      rw [Reads_unique hr' hr] at hk
      refine ⟨_, hk, fun k row hcar => ?_⟩
      rw [decide_eq_true_eq, hv, (C04_row_kept _).1]
      unfold PassesFilters
      rw [meanings_congr _ _ d.having (fun l hl i hi => htruth k row hcar i (by
        rw [hcomp]; exact List.mem_flatMap.mpr ⟨l, hl, hi⟩))]
      rfl
  obtain ⟨p, hkp, hp⟩ := hpass
  have hpair : List.Forall₂ (fun k row => row ∈ rows ∧ About d.src k row ∧ Carries d.src db k row) ks rows := by
    have : ∀ (l : List (List V)) (l' : List (JRow (MRow V))), (∀ r ∈ l', r ∈ rows) →
        List.Forall₂ (fun k row => About d.src k row ∧ Carries d.src db k row) l l' →
        List.Forall₂ (fun k row => row ∈ rows ∧ About d.src k row ∧ Carries d.src db k row) l l' := by
      intro l l' hsub h
      induction h with
      | nil => exact .nil
      | @cons a b l l' hab _ ih => exact .cons ⟨hsub b (by simp), hab⟩ (ih (fun r hr => hsub r (by simp [hr])))
    exact this ks rows (fun r hr => hr) hall
  let P : List V → Bool := fun k =>
    decide (PassesFilters W (formulaText get pieces depth) (fun i => (lookup (d.fieldOf i)).map SMetric.column) d db k)
  have hfil := forall₂_filter_pair hpair P p (by
    rintro k row ⟨-, -, hcar⟩
    rw [Bool.eq_iff_iff, decide_eq_true_eq]
    exact (hp k row hcar).symm)
  rw [← hkp] at hfil
  -- the row of a combination
  have hrowOf : ∀ k ∈ ks.filter P, ∃ row, row ∈ rows ∧ About d.src k row ∧ Carries d.src db k row ∧ row ∈ kept := by
    intro k hk
    obtain ⟨row, hrm, h1, h2, h3⟩ := forall₂_mem_left hfil hk
    exact ⟨row, h1, h2, h3, hrm⟩
  let rowOf : List V → JRow (MRow V) := fun k => if h : ∃ row, (k, row) ∈ (ks.filter P).zip kept then h.choose else []
  have hzip : ∀ q ∈ (ks.filter P).zip kept, rowOf q.1 = q.2 := by
    intro q hq
    have hex : ∃ row, (q.1, row) ∈ (ks.filter P).zip kept := ⟨q.2, hq⟩
    have hch := hex.choose_spec
    have : rowOf q.1 = hex.choose := dif_pos hex
    rw [this]
    have hndf : (ks.filter P).Nodup := hnd.filter P
    have hlen := hfil.length_eq
    have hndz : (((ks.filter P).zip kept).map Prod.fst).Nodup := by
      rw [List.map_fst_zip (le_of_eq hlen)]
      exact hndf
    have := List.inj_on_of_nodup_map hndz hch hq rfl
    exact congrArg Prod.snd this
  have hkept : (ks.filter P).map rowOf = kept := by
    have hlen := hfil.length_eq
    have h1 : (ks.filter P).map rowOf = ((ks.filter P).zip kept).map (fun q => rowOf q.1) := by
      conv_lhs => rw [← List.map_fst_zip (le_of_eq hlen), List.map_map]
      rfl
    have h2 : kept = ((ks.filter P).zip kept).map Prod.snd := by
      rw [List.map_snd_zip (le_of_eq hlen.symm)]
    conv_rhs => rw [h2]
    rw [h1]
    exact List.map_congr_left hzip
  refine ⟨ks.filter P, fun k => s.select.map (fun c => c.1.eval W s.tables (rowOf k)), lines, hnd.filter P, ?_, ?_, ?_, ?_⟩
  · intro k
    rw [List.mem_filter, hks, decide_eq_true_eq]
  · intro k hk
    have hcar : rowOf k ∈ rows ∧ About d.src k (rowOf k) ∧ Carries d.src db k (rowOf k) := by
      have hf2 : List.Forall₂ (fun k row => row ∈ rows ∧ About d.src k row ∧ Carries d.src db k row) (ks.filter P) ((ks.filter P).map rowOf) := by
        rw [hkept]; exact hfil
      rw [List.forall₂_map_right_iff, List.forall₂_same] at hf2
      exact hf2 k hk
    rw [List.forall₂_map_left_iff, List.forall₂_map_right_iff, List.forall₂_same]
    exact fun c hc => hshow k (rowOf k) hcar.1 hcar.2.1 hcar.2.2 c hc
  · have : (ks.filter P).map (fun k => s.select.map (fun c => c.1.eval W s.tables (rowOf k))) =
        kept.map (fun row => s.select.map (fun c => c.1.eval W s.tables row)) := by
      conv_rhs => rw [← hkept, List.map_map]
      rfl
    rw [this]
    exact hperm
  · rw [hout, e4]
    exact limited_to d.src.warehouse d.limit lines hz

/-- C60 (c): the lines of a merged query. For any number of sub-queries, any contents, dimensions, metrics, formulas, filters and limit: the
answer has exactly one line for each combination of dimension values that is in the result of some sub-query and whose metrics pass the
filters; the line shows the combination, each metric's value for it (NULL where its sub-query has none) and each merged metric
computed from these; at most `limit` lines are given. Missing for the full statement: NULL dimension values (C33_null), and combinations
that are in two later sub-queries but not in the first (hypothesis `hsh`, C33_three). -/
theorem C60_lines_partial (get : String → List Char → Res SMetric) (lookup : String → Res SMetric) (depth : ℕ) (pieces : SMetric → List Piece)
    (hget : ∀ v m g, get v m = .ok g → OrdinaryMetric pieces g) (d : MergedDef) (hm : ∀ m ∈ d.merged, OrdinaryMetric pieces m)
    (s : MStmt) (hs : mergedStatement get lookup depth d = .ok s) (db : String → List (MRow V)) (n : ℕ) (hg : Grouped d.src db n)
    (h₀ : String) (rest : List String) (hh : d.src.hashes = h₀ :: rest)
    (hsh : ∀ k, ¬ PresentIn d.src db k h₀ → ∀ h ∈ rest, ∀ h' ∈ rest, PresentIn d.src db k h → PresentIn d.src db k h' → h = h')
    (hd : DimensionsMatch d.src) (ha : MetricsApart d) (hma : MergedApart d) (W : MWarehouse V)
    (hnames : ∀ m ∈ d.merged, ∀ t, formulaText get pieces depth m = some t → ∀ c ∈ W.names t, ∃ p ∈ d.metrics, c ∈ p.2)
    (hwf : WellFormedFilters d.having) (hon : OnMetrics (fun i => (lookup (d.fieldOf i)).map SMetric.column) d)
    (hz : d.limit ≠ some 0 ∨ d.src.warehouse ≠ .sqlServer ∧ d.src.warehouse ≠ .azureSynapse)
    (out : List (List (Option V))) (hans : s.Answers W db out) :
    ∃ (ks : List (List V)) (line : List V → List (Option V)) (lines : List (List (Option V))), ks.Nodup ∧
      (∀ k, k ∈ ks ↔ (∃ h ∈ d.src.hashes, PresentIn d.src db k h) ∧
        PassesFilters W (formulaText get pieces depth) (fun i => (lookup (d.fieldOf i)).map SMetric.column) d db k) ∧
      (∀ k ∈ ks, List.Forall₂ (Shows W (formulaText get pieces depth) d db k) (s.select.map (·.2)) (line k)) ∧
      lines.Perm (ks.map line) ∧ LimitedTo d.limit lines out := by
  obtain ⟨rows, ks, hrows, hall, hnd, hks⟩ := merged_combinations d.src db n hg h₀ rest hh hsh
  refine merged_lines get lookup depth pieces hget d hm s hs db hg.nodup rows ks hrows hall hnd hks W ?_ ha hma hnames hwf hon hz out hans
  intro ds hds row hrow k hab p hp
  obtain ⟨h, hhm, i, f, hf, hfc, hev⟩ := dimension_shown d.src db n hg h₀ rest hh hd ds hds rows hrows row hrow k hab p hp
  rw [hev, ← hfc]
  exact .dimension h i f hhm hf

/-- C60 (d): with two sub-queries nothing else is needed: one line for each combination that is in either of them. -/
theorem C60_two (get : String → List Char → Res SMetric) (lookup : String → Res SMetric) (depth : ℕ) (pieces : SMetric → List Piece)
    (hget : ∀ v m g, get v m = .ok g → OrdinaryMetric pieces g) (d : MergedDef) (hm : ∀ m ∈ d.merged, OrdinaryMetric pieces m)
    (s : MStmt) (hs : mergedStatement get lookup depth d = .ok s) (db : String → List (MRow V)) (n : ℕ) (hg : Grouped d.src db n)
    (h₀ h₁ : String) (hh : d.src.hashes = [h₀, h₁])
    (hd : DimensionsMatch d.src) (ha : MetricsApart d) (hma : MergedApart d) (W : MWarehouse V)
    (hnames : ∀ m ∈ d.merged, ∀ t, formulaText get pieces depth m = some t → ∀ c ∈ W.names t, ∃ p ∈ d.metrics, c ∈ p.2)
    (hwf : WellFormedFilters d.having) (hon : OnMetrics (fun i => (lookup (d.fieldOf i)).map SMetric.column) d)
    (hz : d.limit ≠ some 0 ∨ d.src.warehouse ≠ .sqlServer ∧ d.src.warehouse ≠ .azureSynapse)
    (out : List (List (Option V))) (hans : s.Answers W db out) :
    ∃ (ks : List (List V)) (line : List V → List (Option V)) (lines : List (List (Option V))), ks.Nodup ∧
      (∀ k, k ∈ ks ↔ (PresentIn d.src db k h₀ ∨ PresentIn d.src db k h₁) ∧
        PassesFilters W (formulaText get pieces depth) (fun i => (lookup (d.fieldOf i)).map SMetric.column) d db k) ∧
      (∀ k ∈ ks, List.Forall₂ (Shows W (formulaText get pieces depth) d db k) (s.select.map (·.2)) (line k)) ∧
      lines.Perm (ks.map line) ∧ LimitedTo d.limit lines out := by
  obtain ⟨ks, line, lines, h1, h2, h3⟩ := C60_lines_partial get lookup depth pieces hget d hm s hs db n hg h₀ [h₁] hh
    (by simp only [List.mem_singleton]; rintro k - h rfl h' rfl - -; rfl) hd ha hma W hnames hwf hon hz out hans
  refine ⟨ks, line, lines, h1, fun k => ?_, h3⟩
  rw [h2 k, hh]
  simp

/-- C60 (e): without dimensions, where each sub-query has its one row, the answer is one line with every metric, and none if the filters are
not true of it. -/
theorem C60_no_dimensions (get : String → List Char → Res SMetric) (lookup : String → Res SMetric) (depth : ℕ) (pieces : SMetric → List Piece)
    (hget : ∀ v m g, get v m = .ok g → OrdinaryMetric pieces g) (d : MergedDef) (hm : ∀ m ∈ d.merged, OrdinaryMetric pieces m)
    (s : MStmt) (hs : mergedStatement get lookup depth d = .ok s) (db : String → List (MRow V))
    (hn : ∀ p ∈ d.src.dims, p.2 = []) (hne : d.src.hashes ≠ []) (hnodup : d.src.hashes.Nodup)
    (r : String → MRow V) (hr : ∀ h ∈ d.src.hashes, db h = [r h])
    (ha : MetricsApart d) (hma : MergedApart d) (W : MWarehouse V)
    (hnames : ∀ m ∈ d.merged, ∀ t, formulaText get pieces depth m = some t → ∀ c ∈ W.names t, ∃ p ∈ d.metrics, c ∈ p.2)
    (hwf : WellFormedFilters d.having) (hon : OnMetrics (fun i => (lookup (d.fieldOf i)).map SMetric.column) d) (hz : d.limit = none)
    (out : List (List (Option V))) (hans : s.Answers W db out) :
    (PassesFilters W (formulaText get pieces depth) (fun i => (lookup (d.fieldOf i)).map SMetric.column) d db [] →
      ∃ line, out = [line] ∧ List.Forall₂ (Shows W (formulaText get pieces depth) d db []) (s.select.map (·.2)) line) ∧
    (¬ PassesFilters W (formulaText get pieces depth) (fun i => (lookup (d.fieldOf i)).map SMetric.column) d db [] → out = []) := by
  obtain ⟨h₀, rest, hh⟩ : ∃ h₀ rest, d.src.hashes = h₀ :: rest := by
    cases h : d.src.hashes with
    | nil => exact absurd h hne
    | cons a l => exact ⟨a, l, rfl⟩
  obtain ⟨row, hrow, hget'⟩ := C33_no_dimensions d.src db (by
    rw [List.all_eq_true]
    intro p hp
    rw [hn p hp]
    rfl) h₀ rest hh r hr
  have hkey : ∀ h (t : MRow V), keyOf d.src h t = [] := by
    intro h t
    unfold keyOf dimsOf
    cases hg : dictGet d.src.dims h with
    | none => rfl
    | some l => rw [show l = [] from hn _ (dictGet_mem hg)]; rfl
  have hpres : ∀ k, (∃ h ∈ d.src.hashes, PresentIn d.src db k h) ↔ k = [] := by
    intro k
    constructor
    · rintro ⟨h, -, t, -, hk⟩
      rw [hkey] at hk
      exact List.map_eq_nil_iff.mp hk.symm
    · rintro rfl
      exact ⟨h₀, by rw [hh]; simp, r h₀, by rw [hr h₀ (by rw [hh]; simp)]; simp, hkey _ _⟩
  obtain ⟨ks, line, lines, h1, h2, h3, h4, h5⟩ := merged_lines get lookup depth pieces hget d hm s hs db hnodup [row] [[]] hrow
    (.cons ⟨⟨(h₀, r h₀), dictGet_mem (hget' h₀ (by rw [hh]; simp)), hkey _ _⟩, by
      intro h hhm t
      rw [hget' h hhm, hr h hhm, hkey]
      simp [eq_comm]⟩ .nil) (by simp) (by intro k; rw [hpres]; simp) W (by
      intro ds hds row hrow k hab p hp
      obtain ⟨q, hq, e⟩ := (((dimensionSqlGo_keys d.src _ _ ds hds).1 p.1).mp (List.mem_map.mpr ⟨p, hp, rfl⟩)).resolve_left (by simp)
      obtain ⟨l, hl, hf⟩ := (mem_dimensionOrder d.src q.1 q.2).mp hq
      rw [show l = [] from hn _ hl] at hf
      simp at hf) ha hma hnames hwf hon (.inl (by rw [hz]; simp)) out hans
  rw [hz] at h5
  have h5 : out = lines := h5
  subst h5
  constructor
  · intro hp
    have hks : ks = [[]] := by
      have hmem : [] ∈ ks := (h2 []).mpr ⟨(hpres []).mpr rfl, hp⟩
      have hsub : ∀ k ∈ ks, k = [] := fun k hk => (hpres k).mp ((h2 k).mp hk).1
      match ks, h1, hmem, hsub with
      | [], _, hmem, _ => simp at hmem
      | [a], _, _, hsub => rw [hsub a (by simp)]
      | a :: b :: l, h1, _, hsub =>
        rw [hsub a (by simp), hsub b (by simp)] at h1
        simp at h1
    rw [hks] at h3 h4
    refine ⟨line [], List.perm_singleton.mp h4, h3 [] (by simp)⟩
  · intro hp
    have hks : ks = [] := by
      rw [List.eq_nil_iff_forall_not_mem]
      intro k hk
      obtain ⟨hk1, hk2⟩ := (h2 k).mp hk
      rw [(hpres k).mp hk1] at hk2
      exact hp hk2
    rw [hks] at h4
    exact List.perm_nil.mp h4

/-- C60 (f): whether there is an answer at all. Filters become conditions of the WHERE of the merged statement, where a merged metric is
a column of the same SELECT: the statement is answered exactly when the warehouse allows that, or no filter is on a merged metric. -/
theorem C60_answered (get : String → List Char → Res SMetric) (lookup : String → Res SMetric) (depth : ℕ) (pieces : SMetric → List Piece)
    (hget : ∀ v m g, get v m = .ok g → OrdinaryMetric pieces g) (d : MergedDef) (hm : ∀ m ∈ d.merged, OrdinaryMetric pieces m)
    (s : MStmt) (hs : mergedStatement get lookup depth d = .ok s) (db : String → List (MRow V)) (n : ℕ) (hg : Grouped d.src db n)
    (ha : MetricsApart d) (hma : MergedApart d) (W : MWarehouse V)
    (hnames : ∀ m ∈ d.merged, ∀ t, formulaText get pieces depth m = some t → ∀ c ∈ W.names t, ∃ p ∈ d.metrics, c ∈ p.2)
    (hwf : WellFormedFilters d.having) (hon : OnMetrics (fun i => (lookup (d.fieldOf i)).map SMetric.column) d) :
    (∃ out, s.Answers W db out) ↔ (W.selectInWhere = true ∨
      ∀ l ∈ leavesList d.having, ∀ i ∈ l.first :: l.rest, ∀ f, lookup (d.fieldOf i) = .ok f → ∀ m ∈ d.merged, m.column ≠ f.column) := by
  classical
  obtain ⟨e1, e2, hsel, hwt, e3, e4, -, hchk⟩ := mergedStatement_ok hs
  obtain ⟨ds, hds, c1, -, -, c4, -, -⟩ := mergedSelect_spec hsel
  have hcomp : clauseComparisons s.whereText = (leavesList d.having).flatMap (fun l => l.first :: l.rest) := by
    have := clause_atoms d.having [] s.whereText hwt
    simpa using this
  have hmerged : ∀ m ∈ d.merged, ownerOf s.tables m.column = none := by
    intro m hmm
    rw [e2]
    unfold ownerOf
    have : (d.src.hashes.map (fun h => (h, subColumns d h))).filter (fun p => decide (m.column ∈ p.2)) = [] := by
      rw [List.filter_eq_nil_iff]
      intro p hp
      obtain ⟨h, -, rfl⟩ := List.mem_map.mp hp
      rw [decide_eq_true_eq]
      unfold subColumns
      rw [List.mem_append]
      rintro (hx | hx)
      · cases hgd : dictGet d.src.dims h with
        | none => rw [hgd] at hx; simp at hx
        | some l =>
          rw [hgd] at hx
          obtain ⟨f, hf, e⟩ := List.mem_map.mp hx
          exact hma.noDimension m hmm _ (dictGet_mem hgd) f hf e
      · cases hgd : dictGet d.metrics h with
        | none => rw [hgd] at hx; simp at hx
        | some l =>
          rw [hgd] at hx
          exact hma.noMetric m hmm _ (dictGet_mem hgd) hx
    rw [this]
  have hlook : ∀ is, checkColumns (conditionColumn lookup d) is = .ok () → ∀ i ∈ is, ∃ f, lookup (d.fieldOf i) = .ok f := by
    intro is
    induction is with
    | nil => intro _ i hi; simp at hi
    | cons a is ih =>
      intro h i hi
      unfold checkColumns at h
      cases hl : lookup (d.fieldOf a) with
      | error e =>
        have : conditionColumn lookup d a = .error e := by unfold conditionColumn; rw [hl]; rfl
        rw [this] at h
        cases h
      | ok f =>
        have : conditionColumn lookup d a = .ok f.column := by unfold conditionColumn; rw [hl]; rfl
        rw [this] at h
        rcases List.mem_cons.mp hi with rfl | hi
        · exact ⟨f, hl⟩
        · exact ih h i hi
  have hcol : ∀ i f, lookup (d.fieldOf i) = .ok f → s.cond i = .ok f.column := by
    intro i f hf
    rw [e3]
    unfold conditionColumn
    rw [hf]
    rfl
  constructor
  · rintro ⟨out, rows, kept, lines, -, -, hcmp, -⟩
    cases hsw : W.selectInWhere with
    | true => exact .inl rfl
    | false =>
      refine .inr ?_
      intro l hl i hi f hf m hmm hmc
      apply hcmp i (by rw [hcomp]; exact List.mem_flatMap.mpr ⟨l, hl, hi⟩)
      unfold MStmt.compared
      rw [hcol i f hf]
      simp only
      rw [← hmc, hmerged m hmm]
      simp only
      rw [hsw]
      rfl
  · intro hor
    obtain ⟨rows, hrows⟩ : ∃ rows, mergedRows d.src db = .ok rows := by
      cases hh : d.src.hashes with
      | nil => exact ⟨[], by unfold mergedRows; rw [hh]⟩
      | cons a l =>
        obtain ⟨rows, h, -⟩ := C33_rows_partial d.src db n hg a l hh
        exact ⟨rows, h⟩
    have hknown : ∀ c ∈ s.select, c.1.Known W s.tables := by
      intro c hc
      rcases c1 c hc with ⟨p, -, rfl⟩ | ⟨p, -, rfl⟩ | ⟨m, hmm, t, ht, rfl⟩
      · trivial
      · trivial
      · intro c hc
        have : formulaText get pieces depth m = some t := by
          rw [← C60_formula get pieces hget depth m (hm m hmm), ht]
          rfl
        obtain ⟨p, hp, hcp⟩ := hnames m hmm t this c hc
        rw [e2, resolve_metric hg.nodup ha hp hcp]
        simp
    have hcmp : ∀ i ∈ clauseComparisons s.whereText, s.compared W i ≠ none := by
      intro i hi
      obtain ⟨f, hf⟩ := hlook _ hchk i hi
      rw [hcomp] at hi
      obtain ⟨l, hl, hil⟩ := List.mem_flatMap.mp hi
      unfold MStmt.compared
      rw [hcol i f hf]
      simp only
      rcases hon l hl i hil f.column (by simp only; rw [hf]; rfl) with ⟨p, hp, hcp⟩ | ⟨m, hmm, hmc⟩
      · rw [e2, resolve_metric hg.nodup ha hp hcp]
        simp
      · rcases hor with hsw | hno
        · rw [← hmc, hmerged m hmm]
          simp only
          rw [if_pos hsw]
          obtain ⟨c, hc, hc2⟩ := c4 m hmm
          intro hnone
          rw [Option.map_eq_none_iff, List.find?_eq_none] at hnone
          exact hnone c hc (by simpa using hc2)
        · exact absurd hmc (hno l hl i hil f hf m hmm)
    have hkeep : ∃ kept, s.Keeps W rows kept := by
      unfold MStmt.Keeps
      cases hhv : d.having with
      | nil =>
        rw [hhv] at hwt
        simp only [List.map_nil, clauseText, Except.ok.injEq] at hwt
        rw [← hwt]
        exact ⟨rows, rfl⟩
      | cons f fs =>
        obtain ⟨ts, e, ht, hr, hv⟩ := C04_clause_meaning d.having (by rw [hhv]; simp) hwf
        rw [hwt] at ht
        injection ht with ht
        rw [ht]
        exact ⟨_, e, hr, rfl⟩
    obtain ⟨kept, hkeep⟩ := hkeep
    exact ⟨_, rows, kept, _, by rw [e1]; exact hrows, hknown, hcmp, hkeep, List.Perm.refl _, rfl⟩

end

/-! #### Cases that meet the hypotheses -/

/-- Three monthly counts, their sum and the share of the first in it. -/
def mergedShare : MergedDef where
  src := mergeThree
  metrics := [("a", ["a_n"]), ("b", ["b_n"]), ("c", ["c_n"])]
  merged := [⟨"a", "a_share", true, "${n} / ${all}".toList⟩]
  having := [.leaf { field := some "a.n", first := 0 }, .leaf { field := some "a.share", first := 1 }]
  fieldOf := fun i => if i = 0 then "a.n" else "a.share"
  limit := some 5

/-- The metrics that formulas refer to. -/
def shareGet (_ : String) (n : List Char) : Res SMetric :=
  if n = "n".toList then .ok ⟨"a", "a_n", false, "count".toList⟩
  else if n = "b.n".toList then .ok ⟨"b", "b_n", false, "count".toList⟩
  else if n = "all".toList then .ok ⟨"a", "a_all", true, " ${n} + ${b.n}".toList⟩
  else .error .accessDenied

/-- The metrics that filters name. -/
def shareLookup (n : String) : Res SMetric :=
  if n = "a.n" then .ok ⟨"a", "a_n", false, "count".toList⟩
  else if n = "a.share" then .ok ⟨"a", "a_share", true, "${n} / ${all}".toList⟩
  else .error .accessDenied

/-- The texts as pieces. -/
def sharePieces (f : SMetric) : List Piece :=
  if f.sql = "${n} / ${all}".toList then [.ref "n".toList, .lit " / ".toList, .ref "all".toList]
  else if f.sql = " ${n} + ${b.n}".toList then [.lit " ".toList, .ref "n".toList, .lit " + ".toList, .ref "b.n".toList]
  else [.lit f.sql]

/-- A warehouse on numbers that understands the formula; comparison 0 is "more than 0", comparison 1 "not NULL". -/
def shareHouse (inWhere : Bool) : MWarehouse ℕ where
  names := fun t => if t = "a_n / (a_n + b_n)".toList then ["a_n", "b_n"] else []
  compute := fun t e => if t = "a_n / (a_n + b_n)".toList then
    (e "a_n").bind (fun x => (e "b_n").bind (fun y => if x + y = 0 then none else some (100 * x / (x + y)))) else none
  reads := by
    intro t e e' h
    by_cases ht : t = "a_n / (a_n + b_n)".toList
    · rw [if_pos ht] at h
      rw [if_pos ht, if_pos ht, h "a_n" (by simp), h "b_n" (by simp)]
    · rw [if_neg ht, if_neg ht]
  test := fun i v => match v with
    | none => if i = 0 then .u else .f
    | some x => if i = 0 then (if 0 < x then .t else .f) else .t
  selectInWhere := inWhere

theorem sharePieces_ordinary : ∀ v m g, shareGet v m = .ok g → OrdinaryMetric sharePieces g := by
  intro v m g h
  unfold shareGet at h
  split_ifs at h <;> (injection h with h; subst h; exact ⟨by decide +kernel, by rw [ordinary_iff]; decide +kernel, by decide +kernel, by decide +kernel⟩)

example : OrdinaryMetric sharePieces ⟨"a", "a_share", true, "${n} / ${all}".toList⟩ :=
  ⟨by decide +kernel, by rw [ordinary_iff]; decide +kernel, by decide +kernel, by decide +kernel⟩

example : formulaText shareGet sharePieces 3 ⟨"a", "a_share", true, "${n} / ${all}".toList⟩ = some "a_n / (a_n + b_n)".toList := by
  decide +kernel

example : MetricsApart mergedShare :=
  ⟨by decide +kernel, by decide +kernel, by
    intro p hp q hq c hc hc'
    simp only [mergedShare, List.mem_cons, List.not_mem_nil, or_false] at hp hq
    rcases hp with rfl | rfl | rfl <;> rcases hq with rfl | rfl | rfl <;> simp_all, by decide +kernel⟩

example : MergedApart mergedShare := ⟨by decide +kernel, by decide +kernel, by decide +kernel⟩

example : DimensionsMatch mergeThree := by
  refine ⟨by decide +kernel, by decide +kernel, ?_, by decide +kernel⟩
  intro h hh i f hf
  refine .inr ?_
  simp only [mergeThree, List.mem_cons, List.not_mem_nil, or_false] at hh
  have hi : i = 0 := by
    rcases hh with rfl | rfl | rfl <;>
      (cases i with
       | zero => rfl
       | succ i => simp [dimsOf, mergeThree, dictGet] at hf)
  subst hi
  rcases hh with rfl | rfl | rfl <;>
    (simp only [dimsOf, mergeThree, dictGet] at hf
     simp at hf
     subst hf
     refine ⟨by decide +kernel, by decide +kernel, by decide +kernel, by decide +kernel, ?_⟩
     intro m hm
     simp [MDim.key, mergeThree] at hm
     rcases hm with rfl | rfl <;> exact ⟨_, rfl, by decide +kernel, by decide +kernel, by decide +kernel⟩)

example : WellFormedFilters mergedShare.having := by simp [mergedShare, WellFormedFilters, WellFormedFilter]

example : ∀ k, ¬ PresentIn mergeThree mergeDb k "a" → ∀ h ∈ ["b", "c"], ∀ h' ∈ ["b", "c"], PresentIn mergeThree mergeDb k h →
    PresentIn mergeThree mergeDb k h' → h = h' := by
  have hc : ∀ k, PresentIn mergeThree mergeDb k "c" → PresentIn mergeThree mergeDb k "a" := by
    rintro k ⟨t, ht, hk⟩
    have : keyOf mergeThree "c" t = [some 2] := by
      simp only [mergeDb, if_neg (by decide : ¬ "c" = "a"), if_neg (by decide : ¬ "c" = "b"), List.mem_singleton] at ht
      subst ht
      decide +kernel
    rw [this] at hk
    exact ⟨monthRow "a" (some 2) 20, by simp [mergeDb], by rw [← hk]; decide +kernel⟩
  intro k hk h hh h' hh' hp hp'
  simp only [List.mem_cons, List.not_mem_nil, or_false] at hh hh'
  rcases hh with rfl | rfl
  · rcases hh' with rfl | rfl
    · rfl
    · exact absurd (hc k hp') hk
  · exact absurd (hc k hp) hk

example : (mergedStatement shareGet shareLookup 3 mergedShare).map (fun s => (s.select.map (·.2), s.limit)) =
    .ok (["a_n", "b_n", "c_n", "a_date_month", "b_date_month", "c_date_month", "a_share"], some 5) := by decide +kernel

/-- Only the second month has both counts; its share is 40 of 100. -/
example : (mergedStatement shareGet shareLookup 3 mergedShare).map (fun s => (mergedRows s.src mergeDb).map (fun rows =>
    rows.map (fun row => (s.select.map (fun c => c.1.eval (shareHouse true) s.tables row),
      (s.truth (shareHouse true) row 0, s.truth (shareHouse true) row 1))))) =
    .ok (.ok [([some 10, none, none, some 1, some 1, some 1, none], (.t, .f)),
      ([some 20, some 30, some 50, some 2, some 2, some 2, some 40], (.t, .t)),
      ([none, some 40, none, some 3, some 3, some 3, none], (.u, .f))]) := by decide +kernel

/-- C60 (g), against the full statement: a warehouse that does not allow columns of the SELECT in WHERE refuses the filter on the merged
metric, for any contents. -/
theorem C60_merged_filter (s : MStmt) (hs : mergedStatement shareGet shareLookup 3 mergedShare = .ok s) (db : String → List (MRow ℕ))
    (out : List (List (Option ℕ))) : ¬ s.Answers (shareHouse false) db out := by
  rintro ⟨rows, kept, lines, -, -, hcmp, -⟩
  have h : (mergedStatement shareGet shareLookup 3 mergedShare).map (fun s => (clauseComparisons s.whereText,
      s.compared (shareHouse false) 1)) = .ok ([0, 1], none) := by decide +kernel
  rw [hs] at h
  simp only [Except.map, Except.ok.injEq, Prod.mk.injEq] at h
  exact hcmp 1 (by rw [h.1]; simp) h.2

example : (mergedStatement shareGet shareLookup 3 mergedShare).map (fun s => (s.compared (shareHouse false) 0, s.compared (shareHouse false) 1)) =
    .ok (some (.expr (.col "a" "a_n")), none) := by decide +kernel

end ML
