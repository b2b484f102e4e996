import Verif.Merged.Props
/-
C33 and C34: the columns a merged statement reads exist, which mapped columns it reads, and its texts.
-/
set_option autoImplicit false
namespace ML
open Spec

/-- The columns an expression reads, as pairs of a sub-query and a column. -/
def Spec.reads : MExpr → List (String × String)
  | .col c a => [(c, a)]
  | .ifNull a b => Spec.reads a ++ Spec.reads b

/-- The sub-query `c` computes a dimension as the column `a`. -/
def Spec.Computes (d : MergeDef) (c a : String) : Prop := ∃ l, (c, l) ∈ d.dims ∧ ∃ f ∈ l, f.column = a

/-- Names as the project has them, and mappings as the plan makes them: a name contains no dot, and a field that is mapped into a
sub-query, if it is a dimension of the query, is one of that sub-query. -/
structure Spec.SoundMapping (d : MergeDef) : Prop where
  plain : ∀ p ∈ d.dims, ∀ f ∈ p.2, '.' ∉ f.view.toList ∧ '.' ∉ f.short.toList
  there : ∀ p ∈ d.dims, ∀ g ∈ p.2, ∀ r ∈ d.mapping g.key, ∀ p' ∈ d.dims, ∀ x ∈ p'.2,
    x.id = (match g.group with | none => r.field | some t => r.field ++ "_" ++ t) → ∃ q ∈ d.dims, q.1 = r.cte ∧ ∃ y ∈ q.2, y.id = x.id

theorem replaceAll_cons_ne (c : Char) (l : List Char) (h : c ≠ '.') : replaceAll ['.'] ['_'] (c :: l) = c :: replaceAll ['.'] ['_'] l := by
  unfold replaceAll
  simp only [replaceGo]
  rw [if_neg (by simp [List.isPrefixOf, Ne.symm h])]

theorem replaceAll_cons_dot (l : List Char) : replaceAll ['.'] ['_'] ('.' :: l) = '_' :: replaceAll ['.'] ['_'] l := by
  unfold replaceAll
  simp [replaceGo, List.isPrefixOf]

theorem replaceDots_none (l : List Char) (h : '.' ∉ l) : replaceAll ['.'] ['_'] l = l := by
  induction l with
  | nil => rfl
  | cons c l ih =>
    have h1 : c ≠ '.' := fun e => h (e ▸ List.mem_cons_self)
    have h2 : '.' ∉ l := fun hin => h (List.mem_cons_of_mem _ hin)
    rw [replaceAll_cons_ne c l h1, ih h2]

theorem replaceDots_append (a b : List Char) (h : '.' ∉ a) : replaceAll ['.'] ['_'] (a ++ '.' :: b) = a ++ '_' :: replaceAll ['.'] ['_'] b := by
  induction a with
  | nil => exact replaceAll_cons_dot b
  | cons c a ih =>
    have h1 : c ≠ '.' := fun e => h (e ▸ List.mem_cons_self)
    have h2 : '.' ∉ a := fun hin => h (List.mem_cons_of_mem _ hin)
    rw [List.cons_append, replaceAll_cons_ne c _ h1, ih h2, List.cons_append]

/-- C34: the mapped columns a dimension takes values from are exactly those of the mappings of that field and granularity whose
target is a dimension of the query. -/
theorem C34_sources (d : MergeDef) (f : MDim) (m : MapRef) :
    m ∈ presentFields d f ↔ ∃ p ∈ d.dims, ∃ g ∈ p.2, g.keyGroup = f.id ∧ ∃ r ∈ d.mapping g.key,
      m = ⟨r.cte, match g.group with | none => r.field | some t => r.field ++ "_" ++ t⟩ ∧ ∃ p' ∈ d.dims, ∃ x ∈ p'.2, x.id = m.field := by
  unfold presentFields localMapping
  simp only [List.mem_filter, List.mem_flatMap, List.mem_map, List.any_eq_true, decide_eq_true_eq]
  constructor
  · rintro ⟨⟨g, ⟨⟨p, hp, hg⟩, e⟩, r, hr, rfl⟩, x, ⟨p', hp', hx⟩, e'⟩
    exact ⟨p, hp, g, hg, e, r, hr, rfl, p', hp', x, hx, e'⟩
  · rintro ⟨p, hp, g, hg, e, r, hr, rfl, p', hp', x, hx, e'⟩
    exact ⟨⟨g, ⟨⟨p, hp, hg⟩, e⟩, r, hr, rfl⟩, x, ⟨p', hp', hx⟩, e'⟩

theorem nested_reads (ms : List MapRef) (n : MExpr) (h : nestedIfNull ms = .ok n) (c a : String) (hr : (c, a) ∈ reads n) :
    ∃ m ∈ ms, c = m.cte ∧ a = String.ofList (replaceAll ['.'] ['_'] m.field.toList) := by
  induction ms generalizing n with
  | nil => cases h
  | cons m ms ih =>
    cases ms with
    | nil =>
      simp only [nestedIfNull, Except.ok.injEq] at h
      subst h
      simp only [MapRef.col, reads, List.mem_singleton, Prod.mk.injEq] at hr
      exact ⟨m, by simp, hr.1, hr.2⟩
    | cons m' ms =>
      simp only [nestedIfNull] at h
      cases hn : nestedIfNull (m' :: ms) with
      | error e => rw [hn] at h; cases h
      | ok n' =>
        rw [hn] at h
        simp only [Except.ok.injEq] at h
        subst h
        simp only [MapRef.col, reads, List.mem_append, List.mem_singleton, Prod.mk.injEq] at hr
        rcases hr with hr | hr
        · exact ⟨m, by simp, hr.1, hr.2⟩
        · obtain ⟨x, hx, e⟩ := ih n' hn hr
          exact ⟨x, List.mem_cons_of_mem _ hx, e⟩

/-- C34: every column that the statement reads for a dimension is one that the sub-query it is read from computes. -/
theorem C34_columns_exist (d : MergeDef) (hd : SoundMapping d) (sql : List (String × MExpr)) (h : dimensionSql d = .ok sql)
    (a : String) (e : MExpr) (he : dictGet sql a = some e) (c col : String) (hr : (c, col) ∈ reads e) : Computes d c col := by
  obtain ⟨hget, _⟩ := dimensionSqlGo_get d _ _ sql h a
  rw [he] at hget
  have hord : ∀ p ∈ dimensionOrder d, ∃ l, (p.1, l) ∈ d.dims ∧ p.2 ∈ l := by
    intro p hp
    obtain ⟨⟨k, l⟩, hq, hf⟩ := List.mem_flatMap.mp hp
    obtain ⟨f, hf', rfl⟩ := List.mem_map.mp hf
    exact ⟨l, (List.mem_insertionSort _).mp hq, hf'⟩
  have key : ∀ (L : List (String × MDim)) (o : Option MExpr), (∀ p ∈ L, p ∈ dimensionOrder d) →
      (∀ e, o = some e → ∀ c col, (c, col) ∈ reads e → Computes d c col) →
      ∀ e, L.foldl (stepExpr d) o = some e → ∀ c col, (c, col) ∈ reads e → Computes d c col := by
    intro L
    induction L with
    | nil => intro o _ ho e he; exact ho e he
    | cons p L ih =>
      intro o hL ho
      rw [List.foldl_cons]
      refine ih _ (fun q hq => hL q (List.mem_cons_of_mem _ hq)) ?_
      obtain ⟨l, hl, hp⟩ := hord p (hL p List.mem_cons_self)
      have own : Computes d p.1 p.2.column := ⟨l, hl, p.2, hp, rfl⟩
      intro e he c col hr
      unfold stepExpr at he
      split at he
      · cases o with
        | none =>
          simp only [Option.some.injEq] at he
          subst he
          simp only [reads, List.mem_singleton, Prod.mk.injEq] at hr
          obtain ⟨rfl, rfl⟩ := hr
          exact own
        | some e' =>
          simp only [Option.some.injEq] at he
          subst he
          simp only [reads, List.mem_append, List.mem_singleton, Prod.mk.injEq] at hr
          rcases hr with hr | ⟨rfl, rfl⟩
          · exact ho e' rfl c col hr
          · exact own
      · cases hn : nestedIfNull (presentFields d p.2) with
        | error x => rw [hn] at he; exact ho e he c col hr
        | ok n =>
          rw [hn] at he
          simp only [Option.some.injEq] at he
          subst he
          simp only [reads, List.mem_append, List.mem_singleton, Prod.mk.injEq] at hr
          rcases hr with ⟨rfl, rfl⟩ | hr
          · exact own
          · obtain ⟨m, hm, rfl, rfl⟩ := nested_reads _ n hn c col hr
            obtain ⟨q, hq, g, hg, _, r, hr', rfl, q', hq', x, hx, ex⟩ := (C34_sources d p.2 m).mp hm
            obtain ⟨⟨_, l'⟩, hl', rfl, y, hy, ey⟩ := hd.there q hq g hg r hr' q' hq' x hx ex
            refine ⟨l', hl', y, hy, ?_⟩
            obtain ⟨p1, p2⟩ := hd.plain _ hl' y hy
            simp only at ex ⊢
            rw [← ex, ← ey]
            have : y.id.toList = y.view.toList ++ '.' :: y.short.toList := by simp [MDim.id, String.toList_append]
            rw [this, replaceDots_append _ _ p1, replaceDots_none _ p2]
            apply String.ext
            simp [MDim.column, String.toList_append]
  exact key _ none (fun p hp => (List.mem_filter.mp hp).1) (fun e he => by cases he) e hget.symm c col hr

/-- C33: sub-queries that do not have as many dimensions as the first are not merged on fewer of them. -/
theorem C33_missing_dimension (d : MergeDef) (first second : String) (as bs : List MDim) (ha : dictGet d.dims first = some as)
    (hb : dictGet d.dims second = some bs) (hlt : bs.length < as.length) : mergeJoin d first second = .error .indexError := by
  have heqs : ∀ as bs : List MDim, bs.length < as.length → mergeEqs d.warehouse as bs = .error .indexError := by
    intro as
    induction as with
    | nil => intro bs h; simp at h
    | cons a as ih =>
      intro bs h
      cases bs with
      | nil => rfl
      | cons b bs =>
        simp only [mergeEqs]
        rw [ih bs (by simpa using h)]
  have hne : d.dims.all (fun p => p.2.isEmpty) = false := by
    rw [← Bool.not_eq_true, List.all_eq_true]
    intro hall
    have := hall _ (dictGet_mem ha)
    rw [List.isEmpty_iff] at this
    simp only at this
    rw [this] at hlt
    simp at hlt
  unfold mergeJoin
  rw [hne, ha, hb]
  simp only [Bool.false_eq_true, and_false, if_false]
  cases as with
  | nil => simp at hlt
  | cons a as => rw [heqs _ _ hlt]

/-! ### Cases that meet the hypotheses, and texts -/

example : SoundMapping mergeThree where
  plain := by decide +kernel
  there := by decide +kernel

example : mergeJoin { mergeThree with dims := [("a", [⟨"a", "date", some "month", false, "date"⟩]), ("b", [])] } "a" "b" = .error .indexError :=
  C33_missing_dimension _ "a" "b" _ _ rfl rfl (by decide)

/-- Mapped to a field that no sub-query computes: not read; if there is no other, an error of the program. -/
example : presentFields mergeRegion ⟨"orders", "region", none, false, ""⟩ = [⟨"sessions", "sessions.area"⟩, ⟨"sessions", "sessions.area"⟩] ∧
    presentFields { mergeRegion with mapping := fun k => if k = "orders.region" then [⟨"sessions", "sessions.zone"⟩, ⟨"sessions", "sessions.area"⟩] else [] }
      ⟨"orders", "region", none, false, ""⟩ = [⟨"sessions", "sessions.area"⟩, ⟨"sessions", "sessions.area"⟩] ∧
    dimensionSql { mergeRegion with mapping := fun k => if k = "orders.region" then [⟨"sessions", "sessions.zone"⟩] else [] } = .error .indexError := by
  decide +kernel

/-- The function that takes the first value that is not NULL, by warehouse. -/
example : [Warehouse.snowflake, .bigquery, .redshift, .druid, .sqlServer, .azureSynapse, .postgres, .databricks, .duckDb, .trino].map ifNullName =
    ["ifnull", "ifnull", "nvl", "nvl", "isnull", "isnull", "coalesce", "coalesce", "coalesce", "coalesce"] := by decide +kernel

/-- The texts of the ON parts. -/
example : MJoin.text "a" "b" .always = "1=1" ∧ MJoin.text "a" "b" .cross = "" ∧
    MJoin.text "a" "b" (.eqs [("x", "y", false), ("u", "v", true)]) = "a.x=b.y and CAST(a.u AS TIMESTAMP)=CAST(b.v AS TIMESTAMP)" := by
  decide +kernel

/-- The columns of dates and of durations. -/
example : (⟨"orders", "order", some "month", false, "date"⟩ : MDim).column = "orders_order_month" ∧
    (⟨"orders", "waiting", some "days", true, "date"⟩ : MDim).column = "orders_days_waiting" ∧
    (⟨"orders", "waiting", some "days", true, "date"⟩ : MDim).id = "orders.days_waiting" := by decide +kernel

end ML
