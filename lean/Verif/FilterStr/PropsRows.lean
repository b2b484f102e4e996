import Verif.FilterStr.Props
import Verif.SymAgg.Props
/-
C25: the process-wide week start. C26: filtered measures. C51: string literals.
-/
set_option autoImplicit false
namespace ML
open Spec

/-! ### C25 -/

/-- C25 (a): after a value that is not the empty string has been read without error, weeks start on Monday
again, whatever they started on before and whatever the model says. -/
theorem C25_restored_partial (num : ToNumeric) (now : DateTime) (week : Option String) (v : FVal) (st : WeekState)
    (hv : v ≠ .str []) (cs : List Comparison) (h : (filterDict num now week v st).1 = .ok cs) :
    (filterDict num now week v st).2.starts = 0 ∧ (filterDict num now week v st).2.ends = 6 := by
  have main : (filterDict num now week v st).2 = defaultWeek := by
    cases v with
    | null => rfl
    | bool b => rfl
    | int n => rfl
    | list vs => rfl
    | literal s =>
      unfold filterDict at h ⊢
      by_cases c : containsSub " until ".toList s = true
      · simp only [c, if_true] at h; cases h
      · simp only [c]; rfl
    | str s =>
      cases s with
      | nil => exact absurd rfl hv
      | cons x xs =>
        simp only [filterDict] at h ⊢
        cases hp : parseDateCondition (setWeek week st) now (x :: xs) with
        | error e => rw [hp] at h; cases h
        | ok d => rfl
  rw [main]
  exact ⟨rfl, rfl⟩

/-- C25 (b): a failure that comes after the search for a date phrase restores the week as well. -/
theorem C25_late_failure_partial (num : ToNumeric) (now : DateTime) (week : Option String) (s : List Char) (st : WeekState)
    (hs : s ≠ []) (d : Option Window) (h : parseDateCondition (weekStateFor week) now s = .ok d) :
    (filterDict num now week (.str s) st).2.starts = 0 ∧ (filterDict num now week (.str s) st).2.ends = 6 := by
  cases s with
  | nil => exact absurd rfl hs
  | cons x xs => simp only [filterDict, setWeek, h]; exact ⟨rfl, rfl⟩

theorem filterDict_state (num : ToNumeric) (now : DateTime) (week : Option String) (v : FVal) (st st' : WeekState) :
    (filterDict num now week v st).1 = (filterDict num now week v st').1 := by
  cases v with
  | str s =>
    cases s with
    | nil => rfl
    | cons x xs => rfl
  | _ => rfl

/-- C25 (c): what was parsed before, successfully or not, never changes what a filter value means: each
result of a history is the one the value has in a fresh process. -/
theorem C25_no_influence (num : ToNumeric) (history : List (DateTime × Option String × FVal)) (st : WeekState) :
    (parseAll num history st).1 = history.map (fun p => (filterDict num p.1 p.2.1 p.2.2 ⟨0, 6⟩).1) := by
  induction history generalizing st with
  | nil => rfl
  | cons p ps ih =>
    obtain ⟨now, week, v⟩ := p
    simp only [parseAll, List.map_cons, ih]
    rw [filterDict_state num now week v st ⟨0, 6⟩]

/-- C25 (d): over a whole history in which every failing value failed after the search for a date phrase,
the week is restored at the end. -/
theorem C25_history_partial (num : ToNumeric) (history : List (DateTime × Option String × FVal))
    (h : ∀ p ∈ history, ∀ st, (∃ cs, (filterDict num p.1 p.2.1 p.2.2 st).1 = .ok cs) ∨
      ∃ s d, p.2.2 = .str s ∧ s ≠ [] ∧ parseDateCondition (weekStateFor p.2.1) p.1 s = .ok d) :
    (parseAll num history ⟨0, 6⟩).2.starts = 0 ∧ (parseAll num history ⟨0, 6⟩).2.ends = 6 := by
  have key : ∀ st : WeekState, st.starts = 0 ∧ st.ends = 6 →
      (parseAll num history st).2.starts = 0 ∧ (parseAll num history st).2.ends = 6 := by
    induction history with
    | nil => intro st hst; exact hst
    | cons p ps ih =>
      intro st hst
      obtain ⟨now, week, v⟩ := p
      simp only [parseAll]
      apply ih (fun q hq => h q (by simp [hq]))
      by_cases hv : v = .str []
      · subst hv; exact hst
      rcases h (now, week, v) (by simp) st with ⟨cs, hc⟩ | ⟨s, d, e, hne, hp⟩
      · exact C25_restored_partial num now week v st hv cs hc
      · simp only at e hp; subst e
        exact C25_late_failure_partial num now week s st hne d hp
  exact key ⟨0, 6⟩ ⟨rfl, rfl⟩

/-- C25 (e), against the full statement: a value whose date phrase cannot be read leaves the week start of
its model behind in the process. -/
theorem C25_leak (num : ToNumeric) (now : DateTime) :
    ∃ e, (filterDict num now (some "sunday") (.str "a until b".toList) ⟨0, 6⟩).1 = .error e ∧
      (filterDict num now (some "sunday") (.str "a until b".toList) ⟨0, 6⟩).2.starts = 6 := by
  have h : ∃ e, parseDateCondition (weekStateFor (some "sunday")) now "a until b".toList = .error e := by
    have e1 : splitFirst " until ".toList "a until b".toList = some ("a".toList, "b".toList) := by decide
    have e2 : splitFirst " until ".toList "b".toList = none := by decide
    have e3 : ∀ ws, parseSimple ws now "a".toList = .ok none := by
      intro ws
      have b1 : reSearch reAgoFor "a".toList = none := by decide
      have b2 : reSearch reNIntervalModifier "a".toList = none := by decide
      have b3 : reSearch reNInterval "a".toList = none := by decide
      unfold parseSimple
      rw [if_neg (by decide), if_neg (by decide)]
      unfold parseAgoFor parseNIntervalModifier parseNInterval
      rw [b1, b2, b3]
    have e4 : parseDateString "a".toList = .error .valueError := by decide
    unfold parseDateCondition
    rw [e1]
    simp only
    rw [e2]
    simp only [untilSide, e3, e4]
    exact ⟨_, rfl⟩
  obtain ⟨e, he⟩ := h
  refine ⟨e, ?_, ?_⟩
  · show (match parseDateCondition (weekStateFor (some "sunday")) now "a until b".toList with
      | .error e => ((.error e : Res (List Comparison)), weekStateFor (some "sunday"))
      | .ok date => (stringComparison num date "a until b".toList, defaultWeek)).1 = _
    rw [he]
  · show (match parseDateCondition (weekStateFor (some "sunday")) now "a until b".toList with
      | .error e => ((.error e : Res (List Comparison)), weekStateFor (some "sunday"))
      | .ok date => (stringComparison num date "a until b".toList, defaultWeek)).2.starts = _
    rw [he]
    rfl

/-- A history that meets the hypothesis of (d): a week phrase for a model whose weeks start on Sunday, then
a mixed list, which is rejected. -/
example (num : ToNumeric) :
    ∀ p ∈ [(feb28, some "sunday", FVal.str "last week".toList), (feb28, some "friday", .str "-a, b".toList)],
      ∀ st, (∃ cs, (filterDict num p.1 p.2.1 p.2.2 st).1 = .ok cs) ∨
      ∃ s d, p.2.2 = .str s ∧ s ≠ [] ∧ parseDateCondition (weekStateFor p.2.1) p.1 s = .ok d := by
  intro p hp st
  simp only [List.mem_cons, List.not_mem_nil, or_false] at hp
  rcases hp with rfl | rfl
  · exact .inr ⟨_, some [(.ge, ⟨⟨2024, 2, 18⟩, 0⟩), (.le, ⟨⟨2024, 2, 24⟩, 86399⟩)], rfl, by decide, by decide +kernel⟩
  · exact .inr ⟨_, none, rfl, by decide, by decide +kernel⟩

/-! ### C26 -/

section
variable {ρ : Type}

theorem sqlAnd_all (l : List (Option Bool)) (a : Option Bool) :
    l.foldl sqlAnd a = some true ↔ a = some true ∧ ∀ x ∈ l, x = some true := by
  induction l generalizing a with
  | nil => simp
  | cons x xs ih =>
    rw [List.foldl_cons, ih]
    have : sqlAnd a x = some true ↔ a = some true ∧ x = some true := by
      rcases a with _ | _ | _ <;> rcases x with _ | _ | _ <;> simp [sqlAnd]
    rw [this]
    simp [and_assoc]

/-- The conditions of the CASE expression say that the row matches. -/
theorem conditions_matches (num : ToNumeric) (now : DateTime) (truth : ρ → String → Comparison → Option Bool)
    (filters : List MeasureFilter) (cs : List (String × Comparison))
    (h : filterConditions num now filters = .ok cs) (r : ρ) :
    (∀ c ∈ cs, truth r c.1 c.2 = some true) ↔ RowMatches num now truth filters r := by
  induction filters generalizing cs with
  | nil => simp only [filterConditions, Except.ok.injEq] at h; subst h; simp [RowMatches]
  | cons f fs ih =>
    have skip : (f.field = none ∨ f.value = none) → filterConditions num now fs = .ok cs →
        ((∀ c ∈ cs, truth r c.1 c.2 = some true) ↔ RowMatches num now truth (f :: fs) r) := by
      intro hn hc
      rw [ih cs hc]
      unfold RowMatches
      constructor
      · intro hm g hg field v cs' h1 h2
        rcases List.mem_cons.mp hg with rfl | hg
        · rcases hn with hn | hn
          · rw [hn] at h1; cases h1
          · rw [hn] at h2; cases h2
        · exact hm g hg field v cs' h1 h2
      · intro hm g hg; exact hm g (by simp [hg])
    cases hf : f.field with
    | none =>
      apply skip (.inl hf)
      simpa only [filterConditions, hf] using h
    | some field =>
      cases hv : f.value with
      | none =>
        apply skip (.inr hv)
        simpa only [filterConditions, hf, hv] using h
      | some v =>
        simp only [filterConditions, hf, hv] at h
        cases hd : (filterDict num now f.week v defaultWeek).1 with
        | error e => rw [hd] at h; cases h
        | ok ds =>
          rw [hd] at h
          simp only at h
          cases hr : filterConditions num now fs with
          | error e => rw [hr] at h; cases h
          | ok rest =>
            rw [hr] at h
            injection h with h
            subst h
            have ih := ih rest hr
            constructor
            · intro hall g hg field' v' cs' h1 h2 h3
              rcases List.mem_cons.mp hg with rfl | hg
              · rw [hf] at h1; injection h1 with h1; subst h1
                rw [hv] at h2; injection h2 with h2; subst h2
                rw [hd] at h3; injection h3 with h3; subst h3
                intro c hc
                exact hall (field, c) (List.mem_append_left _ (List.mem_map.mpr ⟨c, hc, rfl⟩))
              · exact ih.mp (fun c hc => hall c (List.mem_append_right _ hc)) g hg field' v' cs' h1 h2 h3
            · intro hm c hc
              rcases List.mem_append.mp hc with hc | hc
              · obtain ⟨d, hd', rfl⟩ := List.mem_map.mp hc
                exact hm f (by simp) field v ds hf hv hd d hd'
              · exact ih.mpr (fun g hg => hm g (by simp [hg])) c hc

/-- The value of the CASE expression. -/
theorem eval_case (num : ToNumeric) (now : DateTime) (truth : ρ → String → Comparison → Option Bool)
    (value : ρ → String → Val) (filters : List MeasureFilter) (sql : String) (z : Bool) (c : CaseSql)
    (h : translateFilters num now sql filters z = .ok c) (r : ρ) :
    (RowMatches num now truth filters r → c.eval truth value r = value r sql) ∧
    (¬ RowMatches num now truth filters r → c.eval truth value r = if z then some 0 else none) := by
  unfold translateFilters at h
  cases hc : filterConditions num now filters with
  | error e => rw [hc] at h; cases h
  | ok cs =>
    rw [hc] at h
    injection h with h
    subst h
    have key : ((cs.map (fun x => truth r x.1 x.2)).foldl sqlAnd (some true) = some true) ↔
        RowMatches num now truth filters r := by
      rw [sqlAnd_all, ← conditions_matches num now truth filters cs hc r]
      simp only [true_and, List.mem_map, forall_exists_index, and_imp]
      exact ⟨fun hx c hc' => hx _ c hc' rfl, fun hx x c hc' e => e ▸ hx c hc'⟩
    constructor
    · intro hm; unfold CaseSql.eval; rw [if_pos (key.mpr hm)]
    · intro hm; unfold CaseSql.eval; rw [if_neg (fun e => hm (key.mp e))]

theorem filterMap_case (num : ToNumeric) (now : DateTime) (truth : ρ → String → Comparison → Option Bool)
    (filters : List MeasureFilter) (rows : List ρ) (f g : ρ → Val)
    (h1 : ∀ r ∈ rows, RowMatches num now truth filters r → f r = g r)
    (h2 : ∀ r ∈ rows, ¬ RowMatches num now truth filters r → f r = none) :
    rows.filterMap f = (satisfying num now truth filters rows).filterMap g := by
  induction rows with
  | nil => rfl
  | cons r rs ih =>
    have ih := ih (fun x hx => h1 x (by simp [hx])) (fun x hx => h2 x (by simp [hx]))
    unfold satisfying at ih ⊢
    by_cases hm : RowMatches num now truth filters r
    · rw [List.filter_cons_of_pos (by simpa using hm), List.filterMap_cons, List.filterMap_cons, ih,
        h1 r (by simp) hm]
    · rw [List.filter_cons_of_neg (by simpa using hm), List.filterMap_cons, h2 r (by simp) hm, ih]

/-- C26 (a): a measure of any type whose filters include at least one that says something, on any rows:
where no symmetric aggregation is in play its value over all rows is the value of the measure without
filters over the rows that satisfy the filters. `T` is the text of the CASE expression, which the warehouse
evaluates as such. -/
theorem C26_filtered_partial (E : Engine ρ) (num : ToNumeric) (now : DateTime)
    (truth : ρ → String → Comparison → Option Bool) (filters : List MeasureFilter) (sql T : String) (c : CaseSql)
    (h : translateFilters num now sql filters false = .ok c) (_hne : c.conditions ≠ [])
    (hT : ∀ r, E.value r T = c.eval truth E.value r)
    (agg : Scalar → Agg) (hagg : agg ∈ [Agg.sum, .count, .countDistinct, .countDistinctParen, .avg, .median, .max, .min])
    (rows : List ρ) :
    (agg (.raw T)).eval E rows = (agg (.raw sql)).eval E (satisfying num now truth filters rows) := by
  have hv := eval_case num now truth E.value filters sql false c h
  have key : rows.filterMap ((Scalar.raw T).eval E) =
      (satisfying num now truth filters rows).filterMap ((Scalar.raw sql).eval E) := by
    apply filterMap_case
    · intro r _ hm; simp only [Scalar.eval]; rw [hT, (hv r).1 hm]
    · intro r _ hm; simp only [Scalar.eval]; rw [hT, (hv r).2 hm]; rfl
  simp only [List.mem_cons, List.not_mem_nil, or_false] at hagg
  rcases hagg with rfl | rfl | rfl | rfl | rfl | rfl | rfl | rfl <;> simp only [Agg.eval, key]

/-- C26 (b): the same for the symmetric count, whose key carries no filter, and for the sum, count and
average over a distinct key, which is wrapped in the same CASE expression. -/
theorem C26_distinct_partial (E : Engine ρ) (num : ToNumeric) (now : DateTime)
    (truth : ρ → String → Comparison → Option Bool) (filters : List MeasureFilter) (sql T key K : String)
    (c k : CaseSql) (h : translateFilters num now sql filters false = .ok c) (_hne : c.conditions ≠ [])
    (hk : translateFilters num now key filters false = .ok k)
    (hT : ∀ r, E.value r T = c.eval truth E.value r) (hK : ∀ r, E.value r K = k.eval truth E.value r)
    (rows : List ρ) :
    (symCount T key).eval E rows = (symCount sql key).eval E (satisfying num now truth filters rows) ∧
    (symCount T K).eval E rows = (symCount sql key).eval E (satisfying num now truth filters rows) ∧
    (symSum T K).eval E rows = (symSum sql key).eval E (satisfying num now truth filters rows) ∧
    (Agg.ratio (symSum T K) (symCount T K)).eval E rows =
      (Agg.ratio (symSum sql key) (symCount sql key)).eval E (satisfying num now truth filters rows) := by
  have hv := eval_case num now truth E.value filters sql false c h
  have hw := eval_case num now truth E.value filters key false k hk
  have k1 : rows.filterMap ((Scalar.keyIfValue T key).eval E) =
      (satisfying num now truth filters rows).filterMap ((Scalar.keyIfValue sql key).eval E) := by
    apply filterMap_case
    · intro r _ hm; simp only [Scalar.eval]; rw [hT, (hv r).1 hm]
    · intro r _ hm; simp only [Scalar.eval]; rw [hT, (hv r).2 hm]; rfl
  have k2 : rows.filterMap ((Scalar.keyIfValue T K).eval E) =
      (satisfying num now truth filters rows).filterMap ((Scalar.keyIfValue sql key).eval E) := by
    apply filterMap_case
    · intro r _ hm; simp only [Scalar.eval]; rw [hT, (hv r).1 hm, hK, (hw r).1 hm]
    · intro r _ hm; simp only [Scalar.eval]; rw [hT, (hv r).2 hm]; rfl
  have k3 : rows.filterMap ((Scalar.hashed K).eval E) =
      (satisfying num now truth filters rows).filterMap ((Scalar.hashed key).eval E) := by
    apply filterMap_case
    · intro r _ hm; simp only [Scalar.eval]; rw [hK, (hw r).1 hm]
    · intro r _ hm; simp only [Scalar.eval]; rw [hK, (hw r).2 hm]; rfl
  have k4 : rows.filterMap ((Scalar.plus (.adjusted T) (.hashed K)).eval E) =
      (satisfying num now truth filters rows).filterMap ((Scalar.plus (.adjusted sql) (.hashed key)).eval E) := by
    apply filterMap_case
    · intro r _ hm; simp only [Scalar.eval]; rw [hT, (hv r).1 hm, hK, (hw r).1 hm]
    · intro r _ hm; simp only [Scalar.eval]; rw [hK, (hw r).2 hm]; rfl
  have c1 : (symCount T key).eval E rows = (symCount sql key).eval E (satisfying num now truth filters rows) := by
    simp only [symCount, Agg.eval, k1]
  have c2 : (symCount T K).eval E rows = (symCount sql key).eval E (satisfying num now truth filters rows) := by
    simp only [symCount, Agg.eval, k2]
  have c3 : (symSum T K).eval E rows = (symSum sql key).eval E (satisfying num now truth filters rows) := by
    simp only [symSum, Agg.eval, k3, k4]
  exact ⟨c1, c2, c3, by simp only [Agg.eval, c2, c3]⟩

/-- C26 (c): the symmetric sum, whose key is the primary key without a filter: over fanned-out rows it is
the sum over one row per key, of those that satisfy the filters. -/
theorem C26_symmetric_sum_partial (E : Engine ρ) (num : ToNumeric) (now : DateTime)
    (truth : ρ → String → Comparison → Option Bool) (filters : List MeasureFilter) (sql T pk : String) (c : CaseSql)
    (h : translateFilters num now sql filters false = .ok c) (_hne : c.conditions ≠ [])
    (hT : ∀ r, E.value r T = c.eval truth E.value r) (rows reps : List ρ)
    (hr : OnePerKey (fun r => E.value r pk) rows reps)
    (hown : OwnValue (fun r => E.value r pk) (fun r => E.value r T) rows)
    (hcol : NoCollision E.hash (fun r => E.value r pk) (fun r => E.value r T) reps)
    (h6 : SixDecimals (fun r => E.value r sql) (satisfying num now truth filters reps)) :
    (symSum T pk).eval E rows =
      some (values (fun r => E.value r sql) (satisfying num now truth filters reps)).sum := by
  have hv := eval_case num now truth E.value filters sql false c h
  rw [C21_sum_exact E T pk rows reps hr hown hcol ?_]
  · congr 2
    unfold values
    apply filterMap_case
    · intro r _ hm; rw [hT, (hv r).1 hm]
    · intro r _ hm; rw [hT, (hv r).2 hm]; rfl
  · intro r hr' x hx
    simp only at hx
    by_cases hm : RowMatches num now truth filters r
    · rw [hT, (hv r).1 hm] at hx
      exact h6 r (by unfold satisfying; simp [hr', hm]) x hx
    · rw [hT, (hv r).2 hm] at hx; cases hx

/-- C26 (d): a sum with ELSE 0, used for measures that are not additive: the same sum, but 0 where the
sum of no rows is NULL. -/
theorem C26_else_zero_sum (E : Engine ρ) (num : ToNumeric) (now : DateTime)
    (truth : ρ → String → Comparison → Option Bool) (filters : List MeasureFilter) (sql T : String) (c : CaseSql)
    (h : translateFilters num now sql filters true = .ok c)
    (hT : ∀ r, E.value r T = c.eval truth E.value r) (rows : List ρ) :
    SameValue ((Agg.sum (.raw T)).eval E rows)
      ((Agg.sum (.raw sql)).eval E (satisfying num now truth filters rows)) := by
  have hv := eval_case num now truth E.value filters sql true c h
  have g : ∀ vs : List ℚ, (sqlSum vs).getD 0 = vs.sum := by
    intro vs; unfold sqlSum; split
    · rename_i e; rw [e]; rfl
    · rfl
  simp only [SameValue, Agg.eval, g]
  induction rows with
  | nil => rfl
  | cons r rs ih =>
    unfold satisfying at ih ⊢
    by_cases hm : RowMatches num now truth filters r
    · rw [List.filter_cons_of_pos (by simpa using hm), List.filterMap_cons, List.filterMap_cons]
      have e : (Scalar.raw T).eval E r = (Scalar.raw sql).eval E r := by
        simp only [Scalar.eval]; rw [hT, (hv r).1 hm]
      rw [e]
      cases (Scalar.raw sql).eval E r with
      | none => exact ih
      | some x => simp only [List.sum_cons, ih]
    · rw [List.filter_cons_of_neg (by simpa using hm), List.filterMap_cons]
      have e : (Scalar.raw T).eval E r = some 0 := by
        simp only [Scalar.eval]; rw [hT, (hv r).2 hm]; rfl
      rw [e]
      simp only [List.sum_cons, zero_add]
      exact ih

end

/-- Two rows, `1` and `2`, with the values 4 and 6; the filter is on "kind", which is `x` on row 1 only. -/
def kindX : List MeasureFilter := [⟨some "kind", some (.str "x".toList), none⟩, ⟨none, some .null, none⟩]

def kindTruth (r : ℕ) (_ : String) (_ : Comparison) : Option Bool := some (r = 1)

def kindEngine (z : Bool) : Engine ℕ :=
  ⟨fun r s => if s = "v" then some (if r = 1 then 4 else 6)
    else if r = 1 then some 4 else if z then some 0 else none, fun _ => 0⟩

theorem kindX_translate (num : ToNumeric) (z : Bool) :
    translateFilters num feb28 "v" kindX z = .ok ⟨[("kind", ⟨.equalTo, .text "x".toList⟩)], "v", z⟩ := by
  have h := filterDict_str num feb28 none defaultWeek "x".toList (by decide) none (by decide +kernel)
  have h2 : stringComparison num none "x".toList = .ok [⟨.equalTo, .text "x".toList⟩] := by rfl
  simp only [translateFilters, kindX, filterConditions, h, h2, List.map_cons, List.map_nil, List.append_nil]

theorem kindX_matches (num : ToNumeric) (r : ℕ) : RowMatches num feb28 kindTruth kindX r ↔ r = 1 := by
  rw [← conditions_matches num feb28 kindTruth kindX [("kind", ⟨.equalTo, .text "x".toList⟩)] ?_ r]
  · simp [kindTruth]
  · have := kindX_translate num false
    unfold translateFilters at this
    cases hc : filterConditions num feb28 kindX with
    | error e => rw [hc] at this; cases this
    | ok cs => rw [hc] at this; injection this with this; injection this with this; rw [this]

theorem kindX_satisfying (num : ToNumeric) : satisfying num feb28 kindTruth kindX [1, 2] = [1] := by
  unfold satisfying
  rw [List.filter_cons_of_pos (by simpa using (kindX_matches num 1).mpr rfl),
    List.filter_cons_of_neg (by simpa using fun c => absurd ((kindX_matches num 2).mp c) (by decide))]
  rfl

/-- The hypotheses of (a) are met, and the value is that of row 1 alone. -/
example (num : ToNumeric) : (Agg.avg (.raw "T")).eval (kindEngine false) [1, 2] = some 4 := by
  rw [C26_filtered_partial (kindEngine false) num feb28 kindTruth kindX "v" "T" _ (kindX_translate num false)
    (by simp) (by intro r; by_cases h : r = 1 <;> simp [kindEngine, CaseSql.eval, kindTruth, sqlAnd, h]) Agg.avg (by simp) [1, 2],
    kindX_satisfying]
  simp [Agg.eval, Scalar.eval, kindEngine]

/-- C26 (e): with ELSE 0 an average is taken over all rows, not over the ones that satisfy the filters:
here it is 2 instead of 4. The code uses ELSE 0 for averages of measures that are not additive. -/
theorem C26_else_zero_average (num : ToNumeric) :
    ∃ (E : Engine ℕ) (truth : ℕ → String → Comparison → Option Bool) (filters : List MeasureFilter) (c : CaseSql)
      (rows : List ℕ), translateFilters num feb28 "v" filters true = .ok c ∧
      (∀ r, E.value r "T" = c.eval truth E.value r) ∧
      (Agg.avg (.raw "T")).eval E rows = some 2 ∧
      (Agg.avg (.raw "v")).eval E (satisfying num feb28 truth filters rows) = some 4 := by
  refine ⟨kindEngine true, kindTruth, kindX, _, [1, 2], kindX_translate num true, ?_, ?_, ?_⟩
  · intro r; by_cases h : r = 1 <;> simp [kindEngine, CaseSql.eval, kindTruth, sqlAnd, h]
  · simp [Agg.eval, Scalar.eval, kindEngine]; norm_num
  · rw [kindX_satisfying]; simp [Agg.eval, Scalar.eval, kindEngine]

/-- C26 (f), against the full statement: filters whose values are all empty strings make text that is no
SQL expression, instead of the measure without filters. -/
theorem C26_empty_filters (num : ToNumeric) (now : DateTime) (numText : ℚ → List Char) :
    ∃ c, translateFilters num now "v" [⟨some "kind", some (.str []), none⟩] false = .ok c ∧
      c.text numText = .ok "case when  then v end".toList := ⟨_, rfl, rfl⟩

/-! ### C51 -/

theorem readLiteral_quote (v rest : List Char) (hr : rest.head? ≠ some '\'') :
    readLiteral ((v.flatMap (fun c => if c = '\'' then ['\'', '\''] else [c])) ++ '\'' :: rest) = some (v, rest) := by
  induction v with
  | nil =>
    simp only [List.flatMap_nil, List.nil_append]
    cases rest with
    | nil => rfl
    | cons x xs =>
      have : x ≠ '\'' := by simpa using hr
      rw [readLiteral]
      intro cs e
      injection e with e _
      exact this e
  | cons c cs ih =>
    by_cases h : c = '\''
    · subst h
      simp only [List.flatMap_cons, if_true, List.cons_append, List.nil_append, readLiteral]
      rw [ih]; rfl
    · simp only [List.flatMap_cons, if_neg h, List.cons_append, List.nil_append]
      rw [readLiteral]
      · rw [ih]; rfl
      · intro _ e; exact absurd e h
      · intro e; exact absurd e h

/-- C51 (a): whatever text is quoted, reading the literal gives that text back and ends exactly where the
quoted text ends. -/
theorem C51_quoted (v rest : List Char) (hr : rest.head? ≠ some '\'') :
    ∃ body, quote v ++ rest = '\'' :: body ∧ readLiteral body = some (v, rest) := by
  exact ⟨_, by simp [quote], readLiteral_quote v rest hr⟩

/-- C51 (b): in the SQL text of any comparison with a text, the value occurs only inside one literal: what
stands before and after that literal does not depend on the value, and the literal's text is the value,
with a `%` before or after it where the comparison is a pattern. -/
theorem C51_comparison (numText : ℚ → List Char) (f : List Char) (e : Expression) :
    (∃ r, ∀ v, sqlQuery numText f ⟨e, .text v⟩ = r) ∨
    ∃ before pre suf after : List Char, (pre = [] ∨ pre = ['%']) ∧ (suf = [] ∨ suf = ['%']) ∧
      after.head? ≠ some '\'' ∧
      ∀ v, sqlQuery numText f ⟨e, .text v⟩ = .ok (before ++ (quote (pre ++ v ++ suf) ++ after)) := by
  have plain : ∀ op : List Char, (∀ v, sqlQuery numText f ⟨e, .text v⟩ = .ok (f ++ op ++ quote v)) →
      ∃ before pre suf after : List Char, (pre = [] ∨ pre = ['%']) ∧ (suf = [] ∨ suf = ['%']) ∧
      after.head? ≠ some '\'' ∧
      ∀ v, sqlQuery numText f ⟨e, .text v⟩ = .ok (before ++ (quote (pre ++ v ++ suf) ++ after)) := by
    intro op h
    exact ⟨f ++ op, [], [], [], .inl rfl, .inl rfl, by simp, fun v => by rw [h v]; simp⟩
  have pat : ∀ op p s : List Char, (p = [] ∨ p = ['%']) → (s = [] ∨ s = ['%']) →
      (∀ v, sqlQuery numText f ⟨e, .text v⟩ = .ok (f ++ op ++ quote (p ++ v ++ s))) →
      ∃ before pre suf after : List Char, (pre = [] ∨ pre = ['%']) ∧ (suf = [] ∨ suf = ['%']) ∧
      after.head? ≠ some '\'' ∧
      ∀ v, sqlQuery numText f ⟨e, .text v⟩ = .ok (before ++ (quote (pre ++ v ++ suf) ++ after)) := by
    intro op p s hp hs h
    exact ⟨f ++ op, p, s, [], hp, hs, by simp, fun v => by rw [h v]; simp⟩
  have ci : ∀ op p s : List Char, (p = [] ∨ p = ['%']) → (s = [] ∨ s = ['%']) →
      (∀ v, sqlQuery numText f ⟨e, .text v⟩ =
        .ok ("LOWER(".toList ++ f ++ [')'] ++ op ++ ("LOWER(".toList ++ quote (p ++ v ++ s) ++ [')']))) →
      ∃ before pre suf after : List Char, (pre = [] ∨ pre = ['%']) ∧ (suf = [] ∨ suf = ['%']) ∧
      after.head? ≠ some '\'' ∧
      ∀ v, sqlQuery numText f ⟨e, .text v⟩ = .ok (before ++ (quote (pre ++ v ++ suf) ++ after)) := by
    intro op p s hp hs h
    exact ⟨"LOWER(".toList ++ f ++ [')'] ++ op ++ "LOWER(".toList, p, s, [')'], hp, hs, by simp,
      fun v => by rw [h v]; simp only [List.append_assoc]⟩
  cases e with
  | unknown => exact .inl ⟨_, fun v => rfl⟩
  | «matches» => exact .inl ⟨_, fun v => rfl⟩
  | isNull => exact .inl ⟨_, fun v => rfl⟩
  | isNotNull => exact .inl ⟨_, fun v => rfl⟩
  | booleanTrue => exact .inl ⟨_, fun v => rfl⟩
  | booleanFalse => exact .inl ⟨_, fun v => rfl⟩
  | lessThan => exact .inr (plain ['<'] (fun v => by simp [sqlQuery, Operand.sql]))
  | lessOrEqual => exact .inr (plain "<=".toList (fun v => by simp [sqlQuery, Operand.sql]))
  | equalTo => exact .inr (plain ['='] (fun v => by simp [sqlQuery, Operand.sql]))
  | notEqualTo => exact .inr (plain "<>".toList (fun v => by simp [sqlQuery, Operand.sql]))
  | greaterOrEqual => exact .inr (plain ">=".toList (fun v => by simp [sqlQuery, Operand.sql]))
  | greaterThan => exact .inr (plain ['>'] (fun v => by simp [sqlQuery, Operand.sql]))
  | like => exact .inr (plain " LIKE ".toList (fun v => by simp [sqlQuery, Operand.sql]))
  | isIn => exact .inr (plain " IN ".toList (fun v => by simp [sqlQuery, Operand.sql]))
  | isNotIn =>
    exact .inr ⟨"NOT ".toList ++ f ++ " IN ".toList, [], [], [], .inl rfl, .inl rfl, by simp,
      fun v => by simp [sqlQuery, Operand.sql]⟩
  | contains => exact .inr (pat " LIKE ".toList ['%'] ['%'] (.inr rfl) (.inr rfl) (fun v => rfl))
  | doesNotContain => exact .inr (pat " NOT LIKE ".toList ['%'] ['%'] (.inr rfl) (.inr rfl) (fun v => rfl))
  | startsWith => exact .inr (pat " LIKE ".toList [] ['%'] (.inl rfl) (.inr rfl) (fun v => rfl))
  | doesNotStartWith => exact .inr (pat " NOT LIKE ".toList [] ['%'] (.inl rfl) (.inr rfl) (fun v => rfl))
  | endsWith => exact .inr (pat " LIKE ".toList ['%'] [] (.inr rfl) (.inl rfl) (fun v => by simp [sqlQuery, Operand.inner]))
  | doesNotEndWith =>
    exact .inr (pat " NOT LIKE ".toList ['%'] [] (.inr rfl) (.inl rfl) (fun v => by simp [sqlQuery, Operand.inner]))
  | containsCI => exact .inr (ci " LIKE ".toList ['%'] ['%'] (.inr rfl) (.inr rfl) (fun v => rfl))
  | doesNotContainCI => exact .inr (ci " NOT LIKE ".toList ['%'] ['%'] (.inr rfl) (.inr rfl) (fun v => rfl))
  | startsWithCI => exact .inr (ci " LIKE ".toList [] ['%'] (.inl rfl) (.inr rfl) (fun v => rfl))
  | doesNotStartWithCI => exact .inr (ci " NOT LIKE ".toList [] ['%'] (.inl rfl) (.inr rfl) (fun v => rfl))
  | endsWithCI =>
    exact .inr (ci " LIKE ".toList ['%'] [] (.inr rfl) (.inl rfl) (fun v => by simp [sqlQuery, Operand.inner]))
  | doesNotEndWithCI =>
    exact .inr (ci " NOT LIKE ".toList ['%'] [] (.inr rfl) (.inl rfl) (fun v => by simp [sqlQuery, Operand.inner]))

/-- C51 (c): a list of texts is read back as the same list. -/
theorem C51_list (v : List Char) (vs : List (List Char)) (numText : ℚ → List Char) (rest : List Char) :
    ∃ body, (Operand.texts (v :: vs)).sql numText ++ rest = '(' :: body ∧
      readTexts (vs.length + 1) body = some (v :: vs, rest) := by
  refine ⟨List.intercalate [','] ((v :: vs).map quote) ++ ')' :: rest, by simp [Operand.sql], ?_⟩
  induction vs generalizing v with
  | nil =>
    have e : List.intercalate [','] ([v].map quote) ++ ')' :: rest =
        '\'' :: ((v.flatMap (fun c => if c = '\'' then ['\'', '\''] else [c])) ++ '\'' :: (')' :: rest)) := by
      simp [List.intercalate, quote]
    rw [e]
    simp only [readTexts]
    rw [readLiteral_quote v (')' :: rest) (by simp)]
    rfl
  | cons w ws ih =>
    have e : List.intercalate [','] ((v :: w :: ws).map quote) ++ ')' :: rest =
        '\'' :: ((v.flatMap (fun c => if c = '\'' then ['\'', '\''] else [c])) ++ '\'' ::
          (',' :: (List.intercalate [','] ((w :: ws).map quote) ++ ')' :: rest))) := by
      simp [List.intercalate, quote]
    rw [e]
    simp only [List.length_cons, readTexts]
    rw [readLiteral_quote v _ (by simp)]
    simp only
    rw [ih w]
    rfl

/-- C51 (d), against the full statement: a warehouse that also takes a backslash as an escape ends the
literal inside the value. -/
theorem C51_backslash : ∃ v after : List Char, ∃ body, quote v = '\'' :: body ∧
    readLiteralBackslash body = some (['\''], after) ∧ after = " or 1=1 --'".toList ∧ v ≠ ['\''] :=
  ⟨"\\' or 1=1 --".toList, _, _, rfl, by decide, rfl, by decide⟩

example : ∃ body, quote "O'Neil".toList ++ " or x".toList = '\'' :: body ∧
    readLiteral body = some ("O'Neil".toList, " or x".toList) := C51_quoted _ _ (by decide)

end ML
