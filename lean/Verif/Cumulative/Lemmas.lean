import Verif.Cumulative.Spec
import Mathlib.Data.List.Basic
import Mathlib.Data.List.Nodup
import Mathlib.Data.List.Forall2
import Mathlib.Tactic.Tauto
/-
Lemmas about the generated query of cumulative metrics.
-/
set_option autoImplicit false
namespace ML
open Spec

/-! ### Names -/

theorem dot_split {a b c d : List Char} (ha : '.' ∉ a) (hc : '.' ∉ c) (h : a ++ '.' :: b = c ++ '.' :: d) : a = c ∧ b = d := by
  induction a generalizing c with
  | nil =>
    cases c with
    | nil => simpa using h
    | cons x c => simp only [List.nil_append, List.cons_append, List.cons.injEq] at h; exact absurd (h.1 ▸ List.mem_cons_self) hc
  | cons x a ih =>
    cases c with
    | nil => simp only [List.nil_append, List.cons_append, List.cons.injEq] at h; exact absurd (h.1 ▸ List.mem_cons_self) ha
    | cons y c =>
      simp only [List.cons_append, List.cons.injEq] at h
      obtain ⟨h1, h2⟩ := ih (fun hh => ha (List.mem_cons_of_mem _ hh)) (fun hh => hc (List.mem_cons_of_mem _ hh)) h.2
      exact ⟨by rw [h.1, h1], h2⟩

theorem isDefaultDate_iff {ms : List CumMetric} {c : CumCol} (hm : ∀ m ∈ ms, '.' ∉ m.view.toList ∧ '.' ∉ m.defaultDate.toList)
    (hc : '.' ∉ c.view.toList) : isDefaultDate ms c = true ↔ OnCumDate ms c := by
  unfold isDefaultDate OnCumDate
  simp only [List.mem_map, decide_eq_true_eq]
  constructor
  · rintro ⟨m, hm', h⟩
    refine ⟨m, hm', ?_⟩
    simp only [CumMetric.dateAlias, (hm m hm').2, if_false] at h
    have h := congrArg String.toList h
    simp only [String.toList_append, List.append_assoc] at h
    have := dot_split (hm m hm').1 hc (by simpa using h)
    exact ⟨String.toList_injective this.1.symm, String.toList_injective this.2.symm⟩
  · rintro ⟨m, hm', h1, h2⟩
    exact ⟨m, hm', by simp only [CumMetric.dateAlias, (hm m hm').2, if_false, h1, h2]⟩

theorem isDefaultDate_eq {ms : List CumMetric} {c : CumCol} (hm : ∀ m ∈ ms, '.' ∉ m.view.toList ∧ '.' ∉ m.defaultDate.toList)
    (hc : '.' ∉ c.view.toList) : isDefaultDate ms c = decide (OnCumDate ms c) := by
  rw [Bool.eq_iff_iff, isDefaultDate_iff hm hc, decide_eq_true_eq]

/-! ### Conditions -/

theorem rowFilters_mem {F : Type} {ms : List CumMetric} {ws : List (CumWhere F)} {fs : List (CumCol × F)} (h : rowFilters ms ws = .ok fs)
    (c : CumCol) (f : F) : (c, f) ∈ fs ↔ CumWhere.cond c f ∈ ws ∧ isDefaultDate ms c = false := by
  induction ws generalizing fs with
  | nil => simp only [rowFilters] at h; cases h; simp
  | cons w ws ih =>
    cases w with
    | group => simp [rowFilters] at h
    | cond c' f' =>
      simp only [rowFilters] at h
      cases hr : rowFilters ms ws with
      | error e => rw [hr] at h; cases h
      | ok rest =>
        rw [hr] at h
        simp only at h
        split at h
        · next hd =>
          cases h
          rw [ih hr]
          constructor
          · rintro ⟨h1, h2⟩; exact ⟨List.mem_cons_of_mem _ h1, h2⟩
          · rintro ⟨h1, h2⟩
            rcases List.mem_cons.1 h1 with h1 | h1
            · injection h1 with h1 _; subst h1; rw [hd] at h2; cases h2
            · exact ⟨h1, h2⟩
        · next hd =>
          cases h
          simp only [List.mem_cons, ih hr, Prod.mk.injEq, CumWhere.cond.injEq]
          constructor
          · rintro (⟨rfl, rfl⟩ | ⟨h1, h2⟩)
            · exact ⟨.inl ⟨rfl, rfl⟩, by simpa using hd⟩
            · exact ⟨.inr h1, h2⟩
          · rintro ⟨h1 | h1, h2⟩
            · exact .inl h1
            · exact .inr ⟨h1, h2⟩

theorem dateFilters_mem {F : Type} {ms : List CumMetric} {ws : List (CumWhere F)} {fs : List (String × F)} (h : dateFilters ms ws = .ok fs)
    (g : String) (f : F) : (g, f) ∈ fs ↔ ∃ c, CumWhere.cond c f ∈ ws ∧ c.group = g ∧ isDefaultDate ms c = true := by
  induction ws generalizing fs with
  | nil => simp only [dateFilters] at h; cases h; simp
  | cons w ws ih =>
    cases w with
    | group => simp [dateFilters] at h
    | cond c' f' =>
      simp only [dateFilters] at h
      cases hr : dateFilters ms ws with
      | error e => rw [hr] at h; cases h
      | ok rest =>
        rw [hr] at h
        simp only at h
        split at h
        · next hd =>
          cases h
          simp only [List.mem_cons, ih hr, Prod.mk.injEq, CumWhere.cond.injEq]
          constructor
          · rintro (⟨rfl, rfl⟩ | ⟨c, h1, h2, h3⟩)
            · exact ⟨c', .inl ⟨rfl, rfl⟩, rfl, hd⟩
            · exact ⟨c, .inr h1, h2, h3⟩
          · rintro ⟨c, ⟨rfl, rfl⟩ | h1, h2, h3⟩
            · exact .inl ⟨h2.symm, rfl⟩
            · exact .inr ⟨c, h1, h2, h3⟩
        · next hd =>
          cases h
          rw [ih hr]
          constructor
          · rintro ⟨c, h1, h2, h3⟩; exact ⟨c, List.mem_cons_of_mem _ h1, h2, h3⟩
          · rintro ⟨c, h1, h2, h3⟩
            rcases List.mem_cons.1 h1 with h1 | h1
            · injection h1 with h1 _; subst h1; exact absurd h3 hd
            · exact ⟨c, h1, h2, h3⟩

/-! ### Groups -/

section Eval
variable {F R V A : Type} [LinearOrder V]

theorem leDate_eq (a : R → Option V) (d : V) (r : R) : leDate (a r) d = decide (DatedBy a d r) := by
  rw [Bool.eq_iff_iff, decide_eq_true_eq]
  unfold leDate DatedBy
  cases a r with
  | none => simp
  | some t => simp

/-- The rows that meet one date of a list of distinct dates. -/
theorem pairs_at {c : V → R → Bool} {P : R → Bool} {T : List R} {l : List V} (hl : l.Nodup) {d : V} (hd : d ∈ l) :
    ((l.flatMap fun e => (T.filter (c e)).map fun r => (e, r)).filter fun p => decide (p.1 = d) && P p.2).map Prod.snd =
      T.filter fun r => c d r && P r := by
  have other : ∀ l : List V, d ∉ l →
      ((l.flatMap fun e => (T.filter (c e)).map fun r => (e, r)).filter fun p => decide (p.1 = d) && P p.2) = [] := by
    intro l hl
    rw [List.filter_eq_nil_iff]
    intro p hp
    simp only [List.mem_flatMap, List.mem_map] at hp
    obtain ⟨e, he, r, _, rfl⟩ := hp
    have : e ≠ d := fun h => hl (h ▸ he)
    simp [this]
  induction l with
  | nil => cases hd
  | cons e l ih =>
    rw [List.nodup_cons] at hl
    rw [List.flatMap_cons, List.filter_append, List.map_append]
    by_cases h : e = d
    · subst h
      rw [other l hl.1, List.map_nil, List.append_nil, List.filter_map, List.map_map, List.filter_filter]
      simp only [Function.comp_def, decide_true, Bool.true_and]
      rw [List.map_id']
      exact List.filter_congr (fun r _ => Bool.and_comm _ _)
    · rw [ih hl.2 (by rcases List.mem_cons.1 hd with h' | h'; exact absurd h'.symm h; exact h')]
      rw [List.filter_map]
      simp [Function.comp_def, h]

theorem mem_pairs {D : CumData F R V} {q : CumRows F} {a : CumAgg F} {d : V} {r : R} :
    (d, r) ∈ D.pairs q a ↔ d ∈ D.spineDates a.spine ∧ d ≤ D.today ∧ r ∈ D.table q ∧ DatedBy (fun s => D.val s a.date) d r ∧ D.extra r d = true := by
  unfold CumData.pairs
  simp only [List.mem_flatMap, List.mem_map, List.mem_filter, decide_eq_true_eq, Bool.and_eq_true, Prod.mk.injEq]
  constructor
  · rintro ⟨e, ⟨h1, h2⟩, s, ⟨h3, h4, h5⟩, rfl, rfl⟩
    rw [leDate_eq (fun s => D.val s a.date), decide_eq_true_eq] at h4
    exact ⟨h1, h2, h3, h4, h5⟩
  · rintro ⟨h1, h2, h3, h4, h5⟩
    exact ⟨d, ⟨h1, h2⟩, r, ⟨h3, by rw [leDate_eq (fun s => D.val s a.date), decide_eq_true_eq]; exact h4, h5⟩, rfl, rfl⟩

theorem spineDates_nodup {D : CumData F R V} (h : D.days.Nodup) (sp : Option String) : (D.spineDates sp).Nodup := by
  cases sp with
  | none => exact h
  | some g => exact List.nodup_dedup _

/-- The groups with the date of the spine among the grouping columns. -/
theorem mem_result {D : CumData F R V} {agg : List R → A} {q : CumRows F} {a : CumAgg F} (hd : D.days.Nodup) {others : List CumCol}
    (hg : a.groupBy = others.map CumRef.col ++ [CumRef.spine]) (hs : ∀ c ∈ a.select, c ∈ a.groupBy) (cols : List (Option V)) (v : A) :
    (cols, v) ∈ D.result agg q a ↔ ∃ d r, (d, r) ∈ D.pairs q a ∧ (∀ h ∈ a.having, D.dateHolds h.2 (D.asGroup h.1 d) = true) ∧
      cols = a.select.map (fun c => D.ref c (d, r)) ∧
      v = agg ((D.table q).filter fun s => (leDate (D.val s a.date) d && D.extra s d) && decide (others.map (D.val s) = others.map (D.val r))) := by
  have hne : a.groupBy ≠ [] := by rw [hg]; simp
  have hkey : ∀ (d : V) (r : R) (p : V × R), (a.groupBy.map fun c => D.ref c p) = (a.groupBy.map fun c => D.ref c (d, r)) ↔
      p.1 = d ∧ others.map (D.val p.2) = others.map (D.val r) := by
    intro d r p
    rw [hg]
    simp only [List.map_append, List.map_map, List.map_cons, List.map_nil, Function.comp_def, CumData.ref]
    constructor
    · intro h
      have h := List.append_inj h (by simp)
      exact ⟨by simpa using h.2, h.1⟩
    · rintro ⟨h1, h2⟩; rw [h1]; exact congrArg (· ++ [some d]) h2
  have hval : ∀ d r, (d, r) ∈ D.pairs q a →
      (((D.pairs q a).filter fun p => decide ((a.groupBy.map fun c => D.ref c p) = a.groupBy.map fun c => D.ref c (d, r))).map Prod.snd) =
      (D.table q).filter fun s => (leDate (D.val s a.date) d && D.extra s d) && decide (others.map (D.val s) = others.map (D.val r)) := by
    intro d r hp
    have hp' := mem_pairs.1 hp
    rw [List.filter_congr (q := fun p => decide (p.1 = d) && decide (others.map (D.val p.2) = others.map (D.val r)))
      (fun p _ => by rw [Bool.eq_iff_iff, decide_eq_true_eq, hkey, Bool.and_eq_true, decide_eq_true_eq, decide_eq_true_eq])]
    unfold CumData.pairs
    exact pairs_at (c := fun d s => leDate (D.val s a.date) d && D.extra s d)
      (P := fun s => decide (others.map (D.val s) = others.map (D.val r))) (l := (D.spineDates a.spine).filter fun d => decide (d ≤ D.today))
      ((spineDates_nodup hd _).filter _) (by simp [hp'.1, hp'.2.1])
  have hgrp : ∀ d r, (d, r) ∈ D.pairs q a → ∃ p g',
      ((D.pairs q a).filter fun p => decide ((a.groupBy.map fun c => D.ref c p) = a.groupBy.map fun c => D.ref c (d, r))) = p :: g' ∧
      (a.groupBy.map fun c => D.ref c p) = a.groupBy.map fun c => D.ref c (d, r) := by
    intro d r hp
    cases hf : (D.pairs q a).filter fun p => decide ((a.groupBy.map fun c => D.ref c p) = a.groupBy.map fun c => D.ref c (d, r)) with
    | nil =>
      have : (d, r) ∈ (D.pairs q a).filter fun p => decide ((a.groupBy.map fun c => D.ref c p) = a.groupBy.map fun c => D.ref c (d, r)) := by
        simp [hp]
      rw [hf] at this; cases this
    | cons p g' =>
      have : p ∈ (D.pairs q a).filter fun p => decide ((a.groupBy.map fun c => D.ref c p) = a.groupBy.map fun c => D.ref c (d, r)) := by
        rw [hf]; exact List.mem_cons_self
      rw [List.mem_filter, decide_eq_true_eq] at this
      exact ⟨p, g', rfl, this.2⟩
  have hsel : ∀ p p' : V × R, (a.groupBy.map fun c => D.ref c p) = (a.groupBy.map fun c => D.ref c p') →
      (a.select.map fun c => D.ref c p) = a.select.map fun c => D.ref c p' := by
    intro p p' h
    apply List.map_congr_left
    intro c hc
    exact (List.map_inj_left.1 h) c (hs c hc)
  unfold CumData.result CumData.groups
  simp only [hne, if_false, List.mem_map, List.mem_filter, List.mem_dedup]
  constructor
  · rintro ⟨g, ⟨⟨k, ⟨⟨d, r⟩, hp, rfl⟩, rfl⟩, hh⟩, heq⟩
    obtain ⟨p, g', h1, h2⟩ := hgrp d r hp
    obtain ⟨h3, h4⟩ := Prod.mk.inj heq
    refine ⟨d, r, hp, ?_, ?_, ?_⟩
    · rw [h1] at hh
      simp only [CumData.havingHolds, List.all_eq_true] at hh
      intro h hm
      have := hh h hm
      rwa [((hkey d r p).1 h2).1] at this
    · rw [← h3, h1]
      exact hsel p (d, r) h2
    · rw [← h4, hval d r hp]
  · rintro ⟨d, r, hp, hh, rfl, rfl⟩
    obtain ⟨p, g', h1, h2⟩ := hgrp d r hp
    refine ⟨_, ⟨⟨_, ⟨(d, r), hp, rfl⟩, rfl⟩, ?_⟩, ?_⟩
    · rw [h1]
      simp only [CumData.havingHolds, List.all_eq_true]
      intro h hm
      rw [((hkey d r p).1 h2).1]
      exact hh h hm
    · rw [Prod.mk.injEq, hval d r hp]
      refine ⟨?_, rfl⟩
      rw [h1]
      exact hsel p (d, r) h2

/-- The columns of the groups are distinct. -/
theorem result_nodup {D : CumData F R V} {agg : List R → A} {q : CumRows F} {a : CumAgg F} (hg : a.groupBy ≠ [])
    (hs : ∀ c ∈ a.groupBy, c ∈ a.select) : ((D.result agg q a).map Prod.fst).Nodup := by
  unfold CumData.result CumData.groups
  simp only [hg, if_false, List.map_map]
  have key : ∀ (l : List (V × R)) (ks : List (List (Option V))), ks.Nodup → (∀ k ∈ ks, ∃ p ∈ l, (a.groupBy.map fun c => D.ref c p) = k) →
      (((ks.map fun k => l.filter fun p => decide ((a.groupBy.map fun c => D.ref c p) = k)).filter (D.havingHolds a)).map
        (Prod.fst ∘ fun g => (D.groupCols a g, agg (g.map Prod.snd)))).Nodup := by
    intro l ks hn hk
    have : ((ks.map fun k => l.filter fun p => decide ((a.groupBy.map fun c => D.ref c p) = k)).map
        (Prod.fst ∘ fun g => (D.groupCols a g, agg (g.map Prod.snd)))).Nodup := by
      rw [List.map_map]
      apply List.Nodup.map_on _ hn
      intro k1 h1 k2 h2 he
      simp only [Function.comp_apply] at he
      have grp : ∀ k ∈ ks, ∃ p g', l.filter (fun p => decide ((a.groupBy.map fun c => D.ref c p) = k)) = p :: g' ∧ (a.groupBy.map fun c => D.ref c p) = k := by
        intro k hk'
        obtain ⟨p, hp, hpk⟩ := hk k hk'
        cases hf : l.filter (fun p => decide ((a.groupBy.map fun c => D.ref c p) = k)) with
        | nil => rw [List.filter_eq_nil_iff] at hf; exact absurd (by simpa using hpk) (hf p hp)
        | cons p' g' =>
          have : p' ∈ l.filter (fun p => decide ((a.groupBy.map fun c => D.ref c p) = k)) := by rw [hf]; exact List.mem_cons_self
          rw [List.mem_filter, decide_eq_true_eq] at this
          exact ⟨p', g', rfl, this.2⟩
      obtain ⟨p1, g1, e1, f1⟩ := grp k1 h1
      obtain ⟨p2, g2, e2, f2⟩ := grp k2 h2
      rw [e1, e2] at he
      simp only [CumData.groupCols] at he
      rw [← f1, ← f2]
      exact List.map_congr_left fun c hc => (List.map_inj_left.1 he) c (hs c hc)
    exact List.Nodup.sublist (List.Sublist.map _ List.filter_sublist) this
  exact key _ _ (List.nodup_dedup _) (fun k hk => by
    rw [List.mem_dedup, List.mem_map] at hk
    obtain ⟨p, hp, rfl⟩ := hk
    exact ⟨p, hp, rfl⟩)

/-! ### Joins -/

omit [LinearOrder V] in
theorem colsEq_iff [LinearOrder V] (xs ys : List (Option V)) : colsEq xs ys = true ↔ xs = ys ∧ noNull xs = true := by
  induction xs generalizing ys with
  | nil => cases ys <;> simp [colsEq, noNull]
  | cons x xs ih =>
    cases ys with
    | nil => cases x <;> simp [colsEq]
    | cons y ys =>
      cases x with
      | none => simp [colsEq, noNull]
      | some x =>
        cases y with
        | none => simp [colsEq]
        | some y => simp [colsEq, ih, noNull, and_assoc]

theorem lookupCols_some {cte : List (List (Option V) × A)} {cols : List (Option V)} {v : A} (h : (cte.map Prod.fst).Nodup) :
    lookupCols cte cols = some v ↔ (cols, v) ∈ cte := by
  unfold lookupCols
  induction cte with
  | nil => simp
  | cons c cte ih =>
    rw [List.map_cons, List.nodup_cons] at h
    rw [List.find?_cons]
    by_cases hc : c.1 = cols
    · simp only [hc, decide_true, Option.map_some, Option.some.injEq, List.mem_cons]
      constructor
      · rintro rfl; left; rw [← hc]
      · rintro (rfl | h')
        · rfl
        · exact absurd (List.mem_map_of_mem (f := Prod.fst) h') (hc ▸ h.1)
    · simp only [hc, decide_false]
      rw [ih h.2, List.mem_cons]
      constructor
      · exact .inr
      · rintro (rfl | h')
        · exact absurd rfl hc
        · exact h'

theorem filter_cols {cte : List (List (Option V) × A)} (cols : List (Option V)) (h : (cte.map Prod.fst).Nodup) (hn : noNull cols = true) :
    (cte.filter fun c => colsEq cols c.1) = (match lookupCols cte cols with | none => [] | some v => [(cols, v)]) := by
  induction cte with
  | nil => rfl
  | cons c cte ih =>
    rw [List.map_cons, List.nodup_cons] at h
    rw [List.filter_cons]
    by_cases hc : c.1 = cols
    · have h1 : colsEq cols c.1 = true := (colsEq_iff _ _).2 ⟨hc.symm, hn⟩
      have h2 : (cte.filter fun c => colsEq cols c.1) = [] := by
        rw [List.filter_eq_nil_iff]
        intro x hx hh
        have := ((colsEq_iff _ _).1 hh).1
        exact h.1 (by rw [hc, this]; exact List.mem_map_of_mem hx)
      rw [if_pos h1, h2]
      simp only [lookupCols, List.find?_cons, hc, decide_true, Option.map_some]
      rw [← hc]
    · have h1 : colsEq cols c.1 = false := by
        cases hh : colsEq cols c.1 with
        | false => rfl
        | true => exact absurd ((colsEq_iff _ _).1 hh).1.symm hc
      rw [h1, if_neg (by simp), ih h.2]
      simp only [lookupCols, List.find?_cons, hc, decide_false]

theorem leftJoinCum_eq {base : List (List (Option V) × List (Option A))} {cte : List (List (Option V) × A)} (h : (cte.map Prod.fst).Nodup) :
    leftJoinCum base cte = base.map fun b => (b.1, b.2 ++ [if noNull b.1 then lookupCols cte b.1 else none]) := by
  unfold leftJoinCum
  rw [List.map_eq_flatMap]
  apply List.flatMap_congr
  intro b _
  by_cases hn : noNull b.1 = true
  · rw [filter_cols b.1 h hn]
    cases lookupCols cte b.1 <;> simp [hn]
  · have : (cte.filter fun c => colsEq b.1 c.1) = [] := by
      rw [List.filter_eq_nil_iff]
      intro x _ hh
      exact hn ((colsEq_iff _ _).1 hh).2
    rw [this]
    simp [hn]

theorem finalRows_eq (base : List (List (Option V) × List (Option A))) (ctes : List (List (List (Option V) × A)))
    (h : ∀ c ∈ ctes, (c.map Prod.fst).Nodup) :
    finalRows base ctes = base.map fun b => (b.1, b.2 ++ ctes.map fun c => if noNull b.1 then lookupCols c b.1 else none) := by
  unfold finalRows
  induction ctes generalizing base with
  | nil => simp
  | cons c ctes ih =>
    rw [List.foldl_cons, ih _ (fun c' hc' => h c' (List.mem_cons_of_mem _ hc')), leftJoinCum_eq (h c List.mem_cons_self)]
    simp [List.map_map, Function.comp_def]

end Eval

/-! ### The plan -/

theorem defaultGroup_eq {F : Type} {ms : List CumMetric} {dims : List CumCol} {ws : List (CumWhere F)} (hdot : DotFree ms dims ws) :
    defaultGroup ms dims = granularity ms dims := by
  unfold defaultGroup granularity
  have : dims.find? (isDefaultDate ms) = dims.find? fun d => decide (OnCumDate ms d) := by
    have h : ∀ l : List CumCol, (∀ c ∈ l, '.' ∉ c.view.toList) → l.find? (isDefaultDate ms) = l.find? fun d => decide (OnCumDate ms d) := by
      intro l hl
      induction l with
      | nil => rfl
      | cons c l ih =>
        rw [List.find?_cons, List.find?_cons, isDefaultDate_eq hdot.1 (hl c List.mem_cons_self), ih fun c hc => hl c (List.mem_cons_of_mem _ hc)]
    exact h dims fun c hc => (hdot.2.1 c hc).1
  rw [this]
  cases dims.find? fun d => decide (OnCumDate ms d) <;> rfl

theorem getDefaultDate_ok {known : CumCol → Bool} {g : String} {m : CumMetric} {c : CumCol} (h : getDefaultDate known g m = .ok c) :
    c = ⟨m.view, m.defaultDate, g⟩ ∧ known c = true ∧ '.' ∉ m.defaultDate.toList := by
  unfold getDefaultDate at h
  split at h
  · cases h
  · next hd =>
    split at h
    · next hk => cases h; exact ⟨rfl, hk, hd⟩
    · cases h

theorem cumRows_ok {F : Type} {known : CumCol → Bool} {ms : List CumMetric} {dims : List CumCol} {ws : List (CumWhere F)} {m : CumMetric}
    {q : CumRows F} (h : cumRows known ms dims ws m = .ok q) :
    rowFilters ms ws = .ok q.filters ∧ q.cols = (if dims.any (fun d => m.defaultDate == d.name && m.view == d.view) then dims
      else dims ++ [⟨m.view, m.defaultDate, defaultGroup ms dims⟩]) ++ cumWhereCols (defaultGroup ms dims) m := by
  simp only [cumRows] at h
  cases hg : getDefaultDate known (defaultGroup ms dims) m with
  | error e => rw [hg] at h; cases h
  | ok date =>
    rw [hg] at h
    simp only at h
    cases hr : rowFilters ms ws with
    | error e => rw [hr] at h; cases h
    | ok fs =>
      rw [hr] at h
      cases h
      obtain ⟨rfl, -, -⟩ := getDefaultDate_ok hg
      exact ⟨rfl, rfl⟩

theorem spineByTimeFrame_valid {ms : List CumMetric} {dims : List CumCol} (h : defaultGroup ms dims ∈ spineGroups) :
    spineByTimeFrame ms dims = (dims, if defaultGroup ms dims = "date" then none else some (defaultGroup ms dims)) := by
  unfold spineByTimeFrame
  simp only [h, not_true_eq_false, if_false]
  split <;> rfl

theorem cumAgg_ok {F : Type} {known : CumCol → Bool} {ms : List CumMetric} {dims dims' : List CumCol} {ws : List (CumWhere F)}
    {m : CumMetric} {a : CumAgg F} (hv : defaultGroup ms dims ∈ spineGroups) (h : cumAgg known ms dims ws m = .ok (dims', a)) :
    dims' = dims ∧ a.date = ⟨m.view, m.defaultDate, defaultGroup ms dims⟩ ∧
    a.spine = (if defaultGroup ms dims = "date" then none else some (defaultGroup ms dims)) ∧
    a.select = dims.map (fun d => if isDefaultDate ms d then .spine else .col d) ∧
    a.groupBy = (if dims.any (isDefaultDate ms) then (dims.filter fun d => !isDefaultDate ms d).map CumRef.col ++ [CumRef.spine]
      else (dims.filter fun d => !isDefaultDate ms d).map CumRef.col) ∧
    ∃ fs, dateFilters ms ws = .ok fs ∧ a.having = if dims.any (isDefaultDate ms) then fs else [] := by
  unfold cumAgg at h
  cases hg : getDefaultDate known (defaultGroup ms dims) m with
  | error e => rw [hg] at h; cases h
  | ok date =>
    rw [hg] at h
    obtain ⟨rfl, -, -⟩ := getDefaultDate_ok hg
    rw [spineByTimeFrame_valid hv] at h
    simp only at h
    cases hr : dateFilters ms ws with
    | error e => rw [hr] at h; cases h
    | ok fs =>
      rw [hr] at h
      cases h
      exact ⟨rfl, rfl, rfl, rfl, rfl, fs, rfl, rfl⟩

theorem cumCtes_ok {F : Type} {known : CumCol → Bool} {ms : List CumMetric} {dims dims' : List CumCol} {ws : List (CumWhere F)}
    {l : List CumMetric} {ctes : List (CumRows F × CumAgg F)} (hv : defaultGroup ms dims ∈ spineGroups)
    (h : cumCtes known ms ws dims l = .ok (dims', ctes)) :
    dims' = dims ∧ List.Forall₂ (fun m c => cumRows known ms dims ws m = .ok c.1 ∧ cumAgg known ms dims ws m = .ok (dims, c.2)) l ctes := by
  induction l generalizing ctes with
  | nil => simp only [cumCtes] at h; cases h; exact ⟨rfl, .nil⟩
  | cons m l ih =>
    simp only [cumCtes] at h
    cases hr : cumRows known ms dims ws m with
    | error e => rw [hr] at h; cases h
    | ok rows =>
      rw [hr] at h
      simp only at h
      cases ha : cumAgg known ms dims ws m with
      | error e => rw [ha] at h; cases h
      | ok da =>
        obtain ⟨d, a⟩ := da
        rw [ha] at h
        simp only at h
        obtain ⟨rfl, -⟩ := cumAgg_ok hv ha
        cases hc : cumCtes known ms ws d l with
        | error e => rw [hc] at h; cases h
        | ok dc =>
          obtain ⟨d', cs⟩ := dc
          rw [hc] at h
          cases h
          obtain ⟨rfl, hf⟩ := ih hc
          exact ⟨rfl, .cons ⟨hr, ha⟩ hf⟩

theorem cumPlan_ok {F : Type} {known : CumCol → Bool} {warehouse : String} {fields : List CumField} {dims : List CumCol}
    {ws : List (CumWhere F)} {plan : CumPlan F} (h : cumPlan known warehouse fields dims ws = .ok plan) :
    cumCtes known (separateMetrics fields).1 ws dims (separateMetrics fields).1 = .ok (plan.dims, plan.ctes) ∧
    (plan.baseIsPlain = true ↔ (separateMetrics fields).2 ≠ []) ∧ warehouse ∈ spineWarehouses := by
  unfold cumPlan at h
  split at h
  · cases h
  · next hw =>
    cases hc : cumCtes known (separateMetrics fields).1 ws dims (separateMetrics fields).1 with
    | error e => simp only [hc] at h; cases h
    | ok dc =>
      obtain ⟨d, cs⟩ := dc
      simp only [hc] at h
      split at h
      · cases h
      · cases h
        exact ⟨rfl, by simp, by simpa using hw⟩

section Run
variable {F R V A : Type} [LinearOrder V]

/-- The rows of the aggregating query are exactly the running totals. -/
theorem result_iff {known : CumCol → Bool} {ms : List CumMetric} {dims dims' : List CumCol} {ws : List (CumWhere F)} {m : CumMetric}
    {q : CumRows F} {a : CumAgg F} (D : CumData F R V) (agg : List R → A) (hdays : D.days.Nodup) (hdot : DotFree ms dims ws)
    (hv : granularity ms dims ∈ spineGroups) (hdate : ∃ d ∈ dims, OnCumDate ms d)
    (hq : cumRows known ms dims ws m = .ok q) (ha : cumAgg known ms dims ws m = .ok (dims', a)) (cols : List (Option V)) (v : A) :
    (cols, v) ∈ D.result agg q a ↔ RunningRow D agg ms dims ws m cols v := by
  have hgr := defaultGroup_eq hdot
  have hdef : ∀ c ∈ dims, isDefaultDate ms c = decide (OnCumDate ms c) := fun c hc => isDefaultDate_eq hdot.1 (hdot.2.1 c hc).1
  have hany : dims.any (isDefaultDate ms) = true := by
    obtain ⟨d, hd, hm⟩ := hdate
    exact List.any_eq_true.2 ⟨d, hd, by rw [hdef d hd]; simpa using hm⟩
  obtain ⟨-, e1, e2, e3, e4, fs, e5, e6⟩ := cumAgg_ok (by rw [hgr]; exact hv) ha
  obtain ⟨f1, -⟩ := cumRows_ok hq
  rw [hany, if_pos rfl] at e4 e6
  rw [mem_result hdays e4 (by
    intro c hc
    rw [e3] at hc
    obtain ⟨d, hd, rfl⟩ := List.mem_map.1 hc
    rw [e4]
    by_cases hh : isDefaultDate ms d = true
    · simp [hh]
    · simp only [hh]
      simp only [Bool.false_eq_true, if_false]
      exact List.mem_append_left _ (List.mem_map_of_mem (List.mem_filter.2 ⟨hd, by simpa using hh⟩)))]
  have hpart : ∀ r : R, ((dims.filter fun d => !isDefaultDate ms d).map (D.val r)) = partitionOf ms dims D.val r := by
    intro r
    unfold partitionOf
    rw [List.filter_congr (fun c hc => by rw [hdef c hc])]
  have hkept : ∀ r, r ∈ D.table q ↔ r ∈ D.rows ∧ RowKept D.keeps ms ws r := by
    intro r
    unfold CumData.table RowKept
    rw [List.mem_filter, List.all_eq_true]
    refine and_congr_right fun _ => ?_
    constructor
    · intro h c f hc hm
      exact h (c, f) ((rowFilters_mem f1 c f).2 ⟨hc, by rw [isDefaultDate_eq hdot.1 (hdot.2.2 c f hc).1]; simpa using hm⟩)
    · rintro h ⟨c, f⟩ hcf
      obtain ⟨h1, h2⟩ := (rowFilters_mem f1 c f).1 hcf
      rw [isDefaultDate_eq hdot.1 (hdot.2.2 c f h1).1] at h2
      exact h c f h1 (by simpa using h2)
  have hhav : ∀ p, (∀ h ∈ a.having, D.dateHolds h.2 (D.asGroup h.1 p) = true) ↔ PeriodKept D.asGroup D.dateHolds ms ws p := by
    intro p
    rw [e6]
    unfold PeriodKept
    constructor
    · intro h c f hc hm
      exact h (c.group, f) ((dateFilters_mem e5 _ _).2 ⟨c, hc, rfl, by rw [isDefaultDate_eq hdot.1 (hdot.2.2 c f hc).1]; simpa using hm⟩)
    · rintro h ⟨g, f⟩ hgf
      obtain ⟨c, h1, rfl, h3⟩ := (dateFilters_mem e5 _ _).1 hgf
      rw [isDefaultDate_eq hdot.1 (hdot.2.2 c f h1).1] at h3
      exact h c f h1 (by simpa using h3)
  have hper : ∀ p, p ∈ D.spineDates a.spine ↔ Period D.days D.asGroup (granularity ms dims) p := by
    intro p
    rw [e2, hgr]
    unfold Period
    unfold spineGroups at hv
    by_cases hd : granularity ms dims = "date"
    · rw [hd]; simp [CumData.spineDates]
    · have : granularity ms dims ∈ ["week", "month", "quarter", "year"] := by
        rcases List.mem_cons.1 hv with h | h
        · exact absurd h hd
        · exact h
      simp only [hd, if_false, this, if_true, CumData.spineDates, List.mem_dedup, List.mem_map]
      constructor
      · rintro ⟨x, hx, rfl⟩; exact ⟨x, hx, rfl⟩
      · rintro ⟨x, hx, rfl⟩; exact ⟨x, hx, rfl⟩
  have hcols : ∀ p r, a.select.map (fun c => D.ref c (p, r)) = shownCols ms dims D.val p r := by
    intro p r
    rw [e3, List.map_map]
    unfold shownCols
    apply List.map_congr_left
    intro c hc
    simp only [Function.comp_apply, hdef c hc, decide_eq_true_eq]
    by_cases hm : OnCumDate ms c <;> simp [hm, CumData.ref]
  have hval : ∀ p r, agg ((D.table q).filter fun s => (leDate (D.val s a.date) p && D.extra s p) &&
      decide (((dims.filter fun d => !isDefaultDate ms d).map (D.val s)) = (dims.filter fun d => !isDefaultDate ms d).map (D.val r))) =
      runningTotal D agg ms dims ws m p r := by
    intro p r
    unfold runningTotal
    congr 1
    classical
    have ht : D.table q = D.rows.filter fun s => decide (RowKept D.keeps ms ws s) := by
      unfold CumData.table
      apply List.filter_congr
      intro s hs
      have := hkept s
      unfold CumData.table at this
      rw [List.mem_filter] at this
      rw [Bool.eq_iff_iff, decide_eq_true_eq]
      exact ⟨fun h => (this.1 ⟨hs, h⟩).2, fun h => (this.2 ⟨hs, h⟩).2⟩
    rw [ht, List.filter_filter]
    apply List.filter_congr
    intro s _
    rw [leDate_eq (fun s => D.val s a.date), hpart, hpart, Bool.eq_iff_iff]
    refine Iff.trans ?_ decide_eq_true_iff.symm
    simp only [Bool.and_eq_true, decide_eq_true_eq, Counted, dateCol, e1, hgr]
    tauto
  unfold RunningRow
  constructor
  · rintro ⟨p, r, hp, hh, rfl, rfl⟩
    obtain ⟨h1, h2, h3, h4, h5⟩ := mem_pairs.1 hp
    exact ⟨p, r, (hper p).1 h1, h2, (hhav p).1 hh, ((hkept r).1 h3).1, ⟨((hkept r).1 h3).2, h5, by rw [e1, hgr] at h4; exact h4⟩, hcols p r, hval p r⟩
  · rintro ⟨p, r, h1, h2, h3, h4, ⟨h5, h6, h7⟩, rfl, rfl⟩
    exact ⟨p, r, mem_pairs.2 ⟨(hper p).2 h1, h2, (hkept r).2 ⟨h4, h5⟩, by rw [e1, hgr]; exact h7, h6⟩, (hhav p).2 h3, (hcols p r).symm, (hval p r).symm⟩

theorem result_once {known : CumCol → Bool} {ms : List CumMetric} {dims dims' : List CumCol} {ws : List (CumWhere F)} {m : CumMetric}
    {a : CumAgg F} (D : CumData F R V) (agg : List R → A) (q : CumRows F) (hdot : DotFree ms dims ws)
    (hv : granularity ms dims ∈ spineGroups) (hdate : ∃ d ∈ dims, OnCumDate ms d)
    (ha : cumAgg known ms dims ws m = .ok (dims', a)) : ((D.result agg q a).map Prod.fst).Nodup := by
  have hgr := defaultGroup_eq hdot
  obtain ⟨-, -, -, e3, e4, -⟩ := cumAgg_ok (by rw [hgr]; exact hv) ha
  have hany : dims.any (isDefaultDate ms) = true := by
    obtain ⟨d, hd, hm⟩ := hdate
    exact List.any_eq_true.2 ⟨d, hd, by rw [isDefaultDate_eq hdot.1 (hdot.2.1 d hd).1]; simpa using hm⟩
  rw [hany, if_pos rfl] at e4
  apply result_nodup (by rw [e4]; simp)
  intro c hc
  rw [e4] at hc
  rw [e3]
  rcases List.mem_append.1 hc with h | h
  · obtain ⟨d, hd, rfl⟩ := List.mem_map.1 h
    obtain ⟨h1, h2⟩ := List.mem_filter.1 hd
    exact List.mem_map.2 ⟨d, h1, by simp at h2; simp [h2]⟩
  · simp only [List.mem_singleton] at h
    subst h
    obtain ⟨d, hd, hm⟩ := List.any_eq_true.1 hany
    exact List.mem_map.2 ⟨d, hd, by simp [hm]⟩

omit [LinearOrder V] in
/-- Two rows that show the same columns show the same period and the same partition. -/
theorem shownCols_inj {ms : List CumMetric} {dims : List CumCol} {val : R → CumCol → Option V} {p p' : V} {r r' : R}
    (hdate : ∃ d ∈ dims, OnCumDate ms d) (h : shownCols ms dims val p r = shownCols ms dims val p' r') :
    p = p' ∧ partitionOf ms dims val r = partitionOf ms dims val r' := by
  unfold shownCols at h
  have h := List.map_inj_left.1 h
  constructor
  · obtain ⟨d, hd, hm⟩ := hdate
    have := h d hd
    simpa [hm] using this
  · unfold partitionOf
    apply List.map_congr_left
    intro d hd
    obtain ⟨h1, h2⟩ := List.mem_filter.1 hd
    have := h d h1
    simp only [Bool.not_eq_true', decide_eq_false_iff_not] at h2
    simpa [h2] using this

end Run

/-! ### Deduplication -/

theorem dedupMetrics_sub {l : List CumMetric} {m : CumMetric} (h : m ∈ dedupMetrics l) : m ∈ l := by
  induction l with
  | nil => cases h
  | cons x l ih =>
    rcases List.mem_cons.1 h with h | h
    · exact h ▸ List.mem_cons_self
    · exact List.mem_cons_of_mem _ (ih (List.mem_filter.1 h).1)

theorem dedupMetrics_nodup (l : List CumMetric) : ((dedupMetrics l).map CumMetric.id).Nodup := by
  induction l with
  | nil => exact List.nodup_nil
  | cons x l ih =>
    rw [dedupMetrics, List.map_cons, List.nodup_cons]
    refine ⟨?_, List.Nodup.sublist (List.Sublist.map _ List.filter_sublist) ih⟩
    intro h
    obtain ⟨y, hy, he⟩ := List.mem_map.1 h
    have := (List.mem_filter.1 hy).2
    simp [he] at this

theorem dedupMetrics_complete {l : List CumMetric} {m : CumMetric} (h : m ∈ l) : ∃ n ∈ dedupMetrics l, n.id = m.id := by
  induction l with
  | nil => cases h
  | cons x l ih =>
    by_cases hx : x.id = m.id
    · exact ⟨x, List.mem_cons_self, hx⟩
    · rcases List.mem_cons.1 h with h | h
      · exact absurd (by rw [h]) hx
      · obtain ⟨n, hn, he⟩ := ih h
        exact ⟨n, List.mem_cons_of_mem _ (List.mem_filter.2 ⟨hn, by simp only [he, bne_iff_ne, ne_eq]; exact fun h => hx h.symm⟩), he⟩

theorem dedupIds_mem {l : List String} {m : String} : m ∈ dedupIds l ↔ m ∈ l := by
  induction l with
  | nil => simp [dedupIds]
  | cons x l ih =>
    rw [dedupIds, List.mem_cons, List.mem_cons, List.mem_filter, ih]
    by_cases h : m = x <;> simp [h]

end ML
