import Verif.Window.Props
import Verif.Answer.PropsMore
import Verif.SymAgg.Props
import Mathlib.Algebra.BigOperators.Group.List.Basic
/-
C57, continued: what each type of metric shows over a group of rows, and what goes wrong.
-/
set_option autoImplicit false
namespace ML
open Spec

section
variable {ρ : Type}

/-- The metric as it would be without its window and filters. -/
def Spec.plainMetric (m : WinMeasure) : AnsField := ⟨m.view, m.name, false, .measure m.measure⟩

theorem get_win {W : WinProject} {n : String} {m : WinMeasure} (h : W.win n = some m) {f : AnsField} (hf : W.get n = .ok f) :
    ∃ c, m.case W.num W.now = .ok c ∧ f = ⟨m.view, m.name, false, .measure { m.measure with sql := W.render c }⟩ := by
  unfold WinProject.get at hf
  rw [h] at hf
  simp only at hf
  cases hc : m.case W.num W.now with
  | error e => rw [hc] at hf; cases hf
  | ok c => rw [hc] at hf; cases hf; exact ⟨c, rfl, rfl⟩

theorem filterMap_counted {G : List ρ} {p : ρ → Bool} {f g : ρ → Option ℚ} (h1 : ∀ r, p r = true → f r = g r) (h2 : ∀ r, p r = false → f r = none) :
    G.filterMap f = (G.filter p).filterMap g := by
  induction G with
  | nil => rfl
  | cons r G ih =>
    cases hp : p r with
    | true =>
      rw [List.filter_cons_of_pos hp, List.filterMap_cons, List.filterMap_cons, ih, h1 r hp]
    | false =>
      rw [List.filter_cons_of_neg (by simp [hp]), List.filterMap_cons, ih, h2 r hp]

theorem filterMap_zeros {G : List ρ} {p : ρ → Bool} {f g : ρ → Option ℚ} (h1 : ∀ r, p r = true → f r = g r) (h2 : ∀ r, p r = false → f r = some 0) :
    (G.filterMap f).Perm ((G.filter p).filterMap g ++ List.replicate (G.filter (fun r => !p r)).length 0) := by
  induction G with
  | nil => exact .refl _
  | cons r G ih =>
    cases hp : p r with
    | true =>
      rw [List.filter_cons_of_pos hp, List.filter_cons_of_neg (by simp [hp]), List.filterMap_cons, List.filterMap_cons, h1 r hp]
      cases g r with
      | none => exact ih
      | some v => exact List.Perm.cons v ih
    | false =>
      rw [List.filter_cons_of_neg (by simp [hp]), List.filter_cons_of_pos (by simp [hp]), List.filterMap_cons, h2 r hp, List.length_cons,
        List.replicate_succ]
      exact (List.Perm.cons 0 ih).trans List.perm_middle.symm

/-- C57 (c): a count over a group is the count of the rows that count, and of no others; also as a symmetric aggregate. -/
theorem C57_count (W : WinProject) (w : Warehouse) (q : Question) (D : Db ρ) (truth : ρ → String → Comparison → Option Bool) (E2 : Engine ρ)
    (hE : ShowsCounted D W w q truth E2) (n : String) (hn : n ∈ q.metrics ++ q.havingNames) (m : WinMeasure) (hm : W.win n = some m) (f : AnsField)
    (hf : W.get n = .ok f) (ht : m.measure.type = .count ∨ m.measure.type = .countDistinct)
    (hpk : ∀ n' m' c, W.win n' = some m' → m'.case W.num W.now = .ok c → pkText m.measure ≠ W.render c) :
    ∃ views, WindowViews W q m.win views ∧ ∀ (fpk : FunctionalPk) (G : List ρ) (p : ρ → Bool), (∀ r, p r = true ↔ Counts D W w q truth m views r) →
      valueOf E2 w fpk f G = valueOf D.engine w fpk (plainMetric m) (G.filter p) := by
  obtain ⟨c, hc, rfl⟩ := get_win hm hf
  obtain ⟨views, hv, hcount⟩ := hE.counted n hn m c hm hc
  refine ⟨views, hv, fun fpk G p hp => ?_⟩
  have e1 : ∀ r, p r = true → E2.value r (W.render c) = D.engine.value r m.measure.sql := fun r h => (hcount r).1 ((hp r).mp h)
  have e2 : ∀ r, p r = false → E2.value r (W.render c) = none := fun r h => by
    rw [(hcount r).2 (fun hc => by rw [(hp r).mpr hc] at h; cases h), if_pos ht]
  have epk : ∀ r, E2.value r (pkText m.measure) = D.engine.value r (pkText m.measure) := fun r => hE.others _ hpk r
  have hraw : G.filterMap ((Scalar.raw (W.render c)).eval E2) = (G.filter p).filterMap ((Scalar.raw m.measure.sql).eval D.engine) :=
    filterMap_counted e1 e2
  have hkey : G.filterMap ((Scalar.keyIfValue (W.render c) (pkText m.measure)).eval E2) =
      (G.filter p).filterMap ((Scalar.keyIfValue m.measure.sql (pkText m.measure)).eval D.engine) := by
    refine filterMap_counted (fun r h => ?_) (fun r h => ?_)
    · simp only [Scalar.eval, e1 r h, epk]
    · simp only [Scalar.eval, e2 r h]
  have hns : needsSymmetric { m.measure with sql := W.render c } fpk = needsSymmetric m.measure fpk := rfl
  have hpt : pkText { m.measure with sql := W.render c } = pkText m.measure := rfl
  unfold valueOf plainMetric aggregateSql
  simp only [hns, hpt]
  rcases ht with ht | ht
  · simp only [ht]
    cases h1 : supportsSymmetric w with
    | true =>
      simp only [if_true]
      cases needsSymmetric m.measure fpk with
      | error e => rfl
      | ok b =>
        cases b with
        | true =>
          cases h2 : m.measure.primaryKeyCount with
          | true => simp only [if_true, Agg.eval, hraw]
          | false => simp only [Bool.false_eq_true, if_false, symCount, Agg.eval, hkey]
        | false => simp only [Agg.eval, hraw]
    | false => simp only [Bool.false_eq_true, if_false, Agg.eval, hraw]
  · simp only [ht, Agg.eval, hraw]

theorem sum_sql (m : Measure) (ht : m.type = .sum) (w : Warehouse) (fpk : FunctionalPk) (T : String) :
    (aggregateSql m w fpk = .ok (.sum (.raw m.sql)) → aggregateSql { m with sql := T } w fpk = .ok (.sum (.raw T))) ∧
    (aggregateSql m w fpk = .ok (symSum m.sql (pkText m)) → aggregateSql { m with sql := T } w fpk = .ok (symSum T (pkText m))) := by
  obtain ⟨t, s, p, k, c⟩ := m
  simp only at ht
  subst ht
  unfold aggregateSql
  have hns : needsSymmetric ⟨.sum, T, p, k, c⟩ fpk = needsSymmetric ⟨.sum, s, p, k, c⟩ fpk := rfl
  simp only [hns]
  cases supportsSymmetric w with
  | true =>
    simp only [if_true]
    cases needsSymmetric ⟨.sum, s, p, k, c⟩ fpk with
    | error e => exact ⟨fun h => (by cases h), fun h => by cases h⟩
    | ok b => cases b with
      | true => exact ⟨fun h => (by cases h), fun _ => rfl⟩
      | false => exact ⟨fun _ => rfl, fun h => by cases h⟩
  | false => exact ⟨fun _ => rfl, fun h => by cases h⟩

theorem zeros_sum (n : Nat) : (List.replicate n (0 : ℚ)).sum = 0 := by
  induction n with
  | zero => rfl
  | succ n ih => rw [List.replicate_succ, List.sum_cons, ih, add_zero]

/-- C57 (d): a sum over a group is the sum over the rows that count; where no row of the group counts it is zero, not NULL. -/
theorem C57_sum (W : WinProject) (w : Warehouse) (q : Question) (D : Db ρ) (truth : ρ → String → Comparison → Option Bool) (E2 : Engine ρ)
    (hE : ShowsCounted D W w q truth E2) (n : String) (hn : n ∈ q.metrics ++ q.havingNames) (m : WinMeasure) (hm : W.win n = some m) (f : AnsField)
    (hf : W.get n = .ok f) (ht : m.measure.type = .sum) (fpk : FunctionalPk)
    (ha : aggregateSql m.measure w fpk = .ok (.sum (.raw m.measure.sql))) :
    ∃ views, WindowViews W q m.win views ∧ ∀ (G : List ρ) (p : ρ → Bool), (∀ r, p r = true ↔ Counts D W w q truth m views r) →
      (valueOf E2 w fpk f G).getD 0 = (valueOf D.engine w fpk (plainMetric m) (G.filter p)).getD 0 ∧
      (G.filter p ≠ G → valueOf E2 w fpk f G ≠ none) := by
  obtain ⟨c, hc, rfl⟩ := get_win hm hf
  obtain ⟨views, hv, hcount⟩ := hE.counted n hn m c hm hc
  have ha' := (sum_sql m.measure ht w fpk (W.render c)).1 ha
  refine ⟨views, hv, fun G p hp => ?_⟩
  have e1 : ∀ r, p r = true → E2.value r (W.render c) = D.engine.value r m.measure.sql := fun r h => (hcount r).1 ((hp r).mp h)
  have e2 : ∀ r, p r = false → E2.value r (W.render c) = some 0 := fun r h => by
    rw [(hcount r).2 (fun hc => by rw [(hp r).mpr hc] at h; cases h), if_neg (by rw [ht]; simp)]
  have hperm := filterMap_zeros (G := G) e1 e2
  unfold valueOf plainMetric
  simp only [ha, ha', Agg.eval]
  have hsum : (G.filterMap ((Scalar.raw (W.render c)).eval E2)).sum = ((G.filter p).filterMap ((Scalar.raw m.measure.sql).eval D.engine)).sum := by
    have := hperm.sum_eq
    rw [List.sum_append, zeros_sum, add_zero] at this
    exact this
  have hget : ∀ l : List ℚ, (sqlSum l).getD 0 = l.sum := by
    intro l
    unfold sqlSum
    split_ifs with h
    · rw [h]; rfl
    · rfl
  refine ⟨by rw [hget, hget, hsum], fun hne => ?_⟩
  have : ∃ r ∈ G, p r = false := by
    by_contra hno
    refine hne (List.filter_eq_self.mpr fun r hr => ?_)
    cases hpr : p r with
    | true => rfl
    | false => exact absurd ⟨r, hr, hpr⟩ hno
  obtain ⟨r, hr, hpr⟩ := this
  have hmem : (0 : ℚ) ∈ G.filterMap ((Scalar.raw (W.render c)).eval E2) := List.mem_filterMap.mpr ⟨r, hr, e2 r hpr⟩
  unfold sqlSum
  rw [if_neg (fun h => by rw [h] at hmem; cases hmem)]
  simp

/-- C57 (d'): the symmetric sum over fanned-out rows is the sum over one row per key, of those that count. (Partial: rows with the same key must
agree on whether they count, and there are no rows without a key.) -/
theorem C57_symmetric_sum_partial (W : WinProject) (w : Warehouse) (q : Question) (D : Db ρ) (truth : ρ → String → Comparison → Option Bool)
    (E2 : Engine ρ) (hE : ShowsCounted D W w q truth E2) (n : String) (hn : n ∈ q.metrics ++ q.havingNames) (m : WinMeasure)
    (hm : W.win n = some m) (f : AnsField) (hf : W.get n = .ok f) (ht : m.measure.type = .sum) (fpk : FunctionalPk)
    (ha : aggregateSql m.measure w fpk = .ok (symSum m.measure.sql (pkText m.measure)))
    (hpk : ∀ n' m' c, W.win n' = some m' → m'.case W.num W.now = .ok c → pkText m.measure ≠ W.render c) :
    ∃ views, WindowViews W q m.win views ∧ ∀ (p : ρ → Bool), (∀ r, p r = true ↔ Counts D W w q truth m views r) → ∀ (G reps : List ρ),
      (∀ r ∈ G, D.engine.value r (pkText m.measure) ≠ none) →
      (∀ a ∈ G, ∀ b ∈ G, D.engine.value a (pkText m.measure) = D.engine.value b (pkText m.measure) →
        p a = p b ∧ D.engine.value a m.measure.sql = D.engine.value b m.measure.sql) →
      OnePerKey (fun r => D.engine.value r (pkText m.measure)) G reps →
      NoCollision D.engine.hash (fun r => D.engine.value r (pkText m.measure)) (fun r => if p r then D.engine.value r m.measure.sql else some 0) reps →
      SixDecimals (fun r => D.engine.value r m.measure.sql) (reps.filter p) →
      valueOf E2 w fpk f G = some (values (fun r => D.engine.value r m.measure.sql) (reps.filter p)).sum := by
  obtain ⟨c, hc, rfl⟩ := get_win hm hf
  obtain ⟨views, hv, hcount⟩ := hE.counted n hn m c hm hc
  have ha' := (sum_sql m.measure ht w fpk (W.render c)).2 ha
  refine ⟨views, hv, fun p hp G reps hkeys hcop hone hcol h6 => ?_⟩
  have e1 : ∀ r, p r = true → E2.value r (W.render c) = D.engine.value r m.measure.sql := fun r h => (hcount r).1 ((hp r).mp h)
  have e2 : ∀ r, p r = false → E2.value r (W.render c) = some 0 := fun r h => by
    rw [(hcount r).2 (fun hc => by rw [(hp r).mpr hc] at h; cases h), if_neg (by rw [ht]; simp)]
  have epk : (fun r => E2.value r (pkText m.measure)) = fun r => D.engine.value r (pkText m.measure) := funext fun r => hE.others _ hpk r
  have eval : (fun r => E2.value r (W.render c)) = fun r => if p r then D.engine.value r m.measure.sql else some 0 := funext fun r => by
    cases hpr : p r with
    | true => exact e1 r hpr
    | false => exact e2 r hpr
  unfold valueOf
  simp only [ha']
  rw [C21_sum_exact E2 (W.render c) (pkText m.measure) G reps (by rw [epk]; exact hone) ?_ (by rw [epk, eval, hE.hash]; exact hcol) ?_, eval]
  · congr 1
    unfold values
    have := (filterMap_zeros (G := reps) (p := p) (f := fun r => if p r then D.engine.value r m.measure.sql else some 0)
      (g := fun r => D.engine.value r m.measure.sql) (fun r h => by simp [h]) (fun r h => by simp [h])).sum_eq
    rw [this, List.sum_append, zeros_sum, add_zero]
  · rw [epk, eval]
    refine ⟨fun a ha b hb hab => ?_, fun r hr hn => absurd hn (hkeys r hr)⟩
    obtain ⟨h1, h2⟩ := hcop a ha b hb hab
    simp only [h1, h2]
  · rw [eval]
    intro r hr x hx
    simp only at hx
    cases hpr : p r with
    | true =>
      rw [hpr] at hx
      exact h6 r (List.mem_filter.mpr ⟨hr, hpr⟩) x hx
    | false =>
      rw [hpr] at hx
      cases hx
      exact ⟨0, by simp⟩

/-- C57 (e): for an average, a maximum, a minimum or a median the other rows of the group take part with the value zero: the aggregate is taken
over the values of the rows that count and one zero for each row that does not. -/
theorem C57_zeros (W : WinProject) (w : Warehouse) (q : Question) (D : Db ρ) (truth : ρ → String → Comparison → Option Bool) (E2 : Engine ρ)
    (hE : ShowsCounted D W w q truth E2) (n : String) (hn : n ∈ q.metrics ++ q.havingNames) (m : WinMeasure) (hm : W.win n = some m)
    (c : CaseSql) (hc : m.case W.num W.now = .ok c) (ht : m.measure.type ≠ .count ∧ m.measure.type ≠ .countDistinct) :
    ∃ views, WindowViews W q m.win views ∧ ∀ (G : List ρ) (p : ρ → Bool), (∀ r, p r = true ↔ Counts D W w q truth m views r) →
      ∃ counted, counted = (G.filter p).filterMap (fun r => D.engine.value r m.measure.sql) ∧
      (G.filterMap (fun r => E2.value r (W.render c))).Perm (counted ++ List.replicate (G.filter (fun r => !p r)).length 0) := by
  obtain ⟨views, hv, hcount⟩ := hE.counted n hn m c hm hc
  refine ⟨views, hv, fun G p hp => ⟨_, rfl, filterMap_zeros (fun r h => (hcount r).1 ((hp r).mp h)) (fun r h => ?_)⟩⟩
  rw [(hcount r).2 (fun hc => by rw [(hp r).mpr hc] at h; cases h), if_neg (by tauto)]

/-- C57 (f): so a maximum is never below zero as soon as a row of the group does not count. -/
theorem C57_max_zero (W : WinProject) (w : Warehouse) (q : Question) (D : Db ρ) (truth : ρ → String → Comparison → Option Bool) (E2 : Engine ρ)
    (hE : ShowsCounted D W w q truth E2) (n : String) (hn : n ∈ q.metrics ++ q.havingNames) (m : WinMeasure) (hm : W.win n = some m) (f : AnsField)
    (hf : W.get n = .ok f) (ht : m.measure.type = .max) :
    ∃ views, WindowViews W q m.win views ∧ ∀ (fpk : FunctionalPk) (G : List ρ), (∃ r ∈ G, ¬ Counts D W w q truth m views r) →
      ∃ t, valueOf E2 w fpk f G = some t ∧ 0 ≤ t := by
  obtain ⟨c, hc, rfl⟩ := get_win hm hf
  obtain ⟨views, hv, hcount⟩ := hE.counted n hn m c hm hc
  refine ⟨views, hv, fun fpk G ⟨r, hr, hno⟩ => ?_⟩
  have h0 : (0 : ℚ) ∈ G.filterMap ((Scalar.raw (W.render c)).eval E2) := List.mem_filterMap.mpr ⟨r, hr, by
    show E2.value r (W.render c) = some 0
    rw [(hcount r).2 hno, if_neg (by rw [ht]; simp)]⟩
  unfold valueOf aggregateSql
  simp only [ht, Agg.eval]
  cases hmax : sqlMax (G.filterMap ((Scalar.raw (W.render c)).eval E2)) with
  | none =>
    exfalso
    cases hl : G.filterMap ((Scalar.raw (W.render c)).eval E2) with
    | nil => rw [hl] at h0; cases h0
    | cons a l => rw [hl] at hmax; cases hmax
  | some t => exact ⟨t, rfl, ((sqlMax_some _ _).mp hmax).2 0 h0⟩

/-- C57 (g): a row with NULL in one of the definition's groupings never counts, whether or not NULLs are said to be equal. -/
theorem C57_null_grouping (W : WinProject) (w : Warehouse) (q : Question) (D : Db ρ) (truth : ρ → String → Comparison → Option Bool) (m : WinMeasure)
    (views : List String) (g : String) (hg : g ∈ m.win.groups) (r : ρ) (h : onRow W D.engine g r = none) :
    ¬ Counts D W w q truth m views r := fun hc => hc.2.1 g hg h

/-- C57 (h): when a grouping or the date of a metric is in a view that is not in the FROM of the query, the query has no answer. Nothing but the
query's own fields brings views into its FROM. -/
theorem C57_missing_view (W : WinProject) (w : Warehouse) (q : Question) (s : WinStmt) (hs : buildWinStmt W w q = .ok s) (n : String)
    (hn : n ∈ q.metrics ++ q.havingNames) (m : WinMeasure) (hm : W.win n = some m) (g : String) (hg : g = m.win.name ∨ g ∈ m.win.groups)
    (f : AnsField) (hf : W.get g = .ok f) (D : Db ρ) (hD : ∀ views, QueryViews W.project q views → f.view ∉ D.tables views)
    (E' : Engine (WRow ρ)) (out : List (List Val)) : ¬ s.Answers W D E' out := by
  rintro ⟨tables, -, -, hfields, -⟩
  obtain ⟨views, hv, hb, hbv, hj, hrefs, hfs⟩ := buildWinStmt_ok hs
  refine hD views hv ?_
  rw [← hbv]
  refine hfields g ?_ f hf
  rw [hfs]
  refine List.mem_flatMap.mpr ⟨m, List.mem_filterMap.mpr ⟨n, hn, hm⟩, ?_⟩
  rcases hg with rfl | hg
  · exact List.mem_cons_self
  · exact List.mem_cons_of_mem _ hg

/-- There is an answer when the subqueries are answered, the column names differ and all references are to columns that exist once. -/
theorem window_answered {W : WinProject} {w : Warehouse} {q : Question} {s : WinStmt} (hs : buildWinStmt W w q = .ok s)
    {ds ms : List AnsField} (hp : Proper W.project q ds ms) (hl : ((ds ++ ms).map AnsField.label).Nodup)
    (hord : GroupsRows q ds ms → OrdersRequested W.project w q) (D : Db ρ) (E' : Engine (WRow ρ))
    (hj : ∀ j ∈ s.joins, ∃ ls, j.cte.Answers D (D.rows j.cte.views) ls) (hon : ∀ j ∈ s.joins, ∀ p ∈ j.on, columnOf j.cte.select p.2 ≠ none)
    (hf : ∀ n ∈ s.fields, ∀ f, W.get n = .ok f → f.view ∈ D.tables s.block.views)
    (hr : ∀ r ∈ s.refs, (s.joins.flatMap WinJoin.columns).count (lower r) = 1) : ∃ out, s.Answers W D E' out := by
  obtain ⟨views, hv, hb, hbv, -⟩ := buildWinStmt_ok hs
  have : ∃ tables, List.Forall₂ (fun j ls => j.cte.Answers D (D.rows j.cte.views) ls) s.joins tables := by
    generalize s.joins = js at hj
    induction js with
    | nil => exact ⟨[], .nil⟩
    | cons j js ih =>
      obtain ⟨ls, h1⟩ := hj j List.mem_cons_self
      obtain ⟨t, h2⟩ := ih fun j hj' => hj j (List.mem_cons_of_mem _ hj')
      exact ⟨ls :: t, .cons h1 h2⟩
  obtain ⟨tables, ht⟩ := this
  obtain ⟨out, ho⟩ := block_answered hb hp hl hord ⟨fun vs => (D.rows vs).map (fun r => (r, [])), D.tables, E', D.test⟩
    (extendAll D.engine (s.joins.zip tables) ((D.rows s.block.views).map (fun r => (r, []))))
  exact ⟨out, tables, ht, hon, hf, hr, ho⟩

end
end ML
