import Verif.SqlText.Parts
/-
A query that is well written has well placed parts, and they are read as the query asks.
-/
set_option autoImplicit false
namespace ML
open Spec

theorem joinWordOf_eq {t : Option String} (h : t ≠ some "cross") : joinWordOf t = wantedJoin t ∧ joinWordOf t ≠ .cross := by
  unfold joinWordOf
  by_cases h1 : t = some "left_outer"
  · subst h1
    exact ⟨rfl, by decide⟩
  · by_cases h2 : t = some "inner"
    · subst h2
      exact ⟨rfl, by decide⟩
    · by_cases h3 : t = some "full_outer"
      · subst h3
        exact ⟨rfl, by decide⟩
      · simp only [h1, h2, h3, h, if_false]
        refine ⟨?_, by decide⟩
        unfold wantedJoin
        split
        · exact absurd rfl h2
        · exact absurd rfl h3
        · rfl

theorem viewJoin_placed (j : Option String × Bool × TableRef × List Char)
    (h : TableKeeps j.2.2.1 ∧ (j.2.1 = false → j.1 ≠ some "cross" ∧ Keeps j.2.2.2)) :
    (Keeps (viewJoin j).table ∧ ((viewJoin j).word = .cross ↔ (viewJoin j).on = none) ∧ ∀ c, (viewJoin j).on = some c → Keeps c) ∧
      ((viewJoin j).word, toks (viewJoin j).table, (viewJoin j).on.map toks) =
        if j.2.1 then (.cross, tableToks j.2.2.1, none) else (wantedJoin j.1, tableToks j.2.2.1, some (toks j.2.2.2)) := by
  obtain ⟨ht, hc⟩ := h
  have htk := (table_has _ ht).keeps
  unfold viewJoin
  cases e : j.2.1 with
  | true =>
    simp only [if_true]
    exact ⟨⟨htk.1, by simp, by simp⟩, by rw [htk.2]; rfl⟩
  | false =>
    obtain ⟨h1, h2⟩ := hc e
    obtain ⟨h3, h4⟩ := joinWordOf_eq h1
    simp only [Bool.false_eq_true, if_false]
    refine ⟨⟨htk.1, by simp [h4], ?_⟩, by rw [htk.2, h3]; rfl⟩
    intro c hc'
    rw [← Option.some.inj hc']
    exact h2

theorem allOf_eq (cs : List (List Char)) :
    (if cs = [] then [] else [cs.flatMap (fun c => partsBetween isAnd (toks c))]) = allOf (cs.map toks) := by
  unfold allOf
  cases cs with
  | nil => rfl
  | cons c r => simp [List.flatMap_map]

theorem entity_wheres (q : TextQuery) (exprs : List (List Char)) (h : WellWritten q exprs) :
    ∀ c ∈ q.entities.zipIdx.map (fun e => isinText e.1.field e.1.label (entityName e.2)), NoOr c := by
  intro c hc
  obtain ⟨e, he, rfl⟩ := List.mem_map.mp hc
  obtain ⟨-, h2, h3⟩ := h.entities e.1 (List.fst_mem_of_mem_zipIdx he)
  exact (isin_has _ _ _ h2 h3).1

theorem wellPlaced_of (q : TextQuery) (exprs : List (List Char)) (h : WellWritten q exprs) : WellPlaced (queryParts q) := by
  have hcol : ∀ c ∈ (if q.noGroup then firsts q.rawColumns else q.columns), c ∈ q.columns ∨ c ∈ q.rawColumns := by
    intro c hc
    split_ifs at hc
    · exact Or.inr (firsts_sub _ c hc)
    · exact Or.inl hc
  have hne : (if q.noGroup then firsts q.rawColumns else q.columns) ≠ [] ∨ q.raw ≠ [] := by
    rcases h.asked with ha | ha
    · left
      split_ifs at ha ⊢
      · exact firsts_ne ha
      · exact ha
    · exact Or.inr ha
  constructor
  · intro c hc
    simp only [queryParts, List.mem_append, List.mem_map] at hc
    rcases hc with ⟨e, he, rfl⟩ | ⟨d, hd, rfl⟩
    · obtain ⟨h1, -, -⟩ := h.entities e.1 (List.fst_mem_of_mem_zipIdx he)
      have hn := (filterName_has e.2).keeps
      refine ⟨⟨hn.1, ?_⟩, h1⟩
      simp only []
      rw [hn.2]
      rfl
    · obtain ⟨h1, h2, -⟩ := h.dates d hd
      exact ⟨h1, h2⟩
  · simp only [queryParts]
    rw [textSelect_eq q exprs h]
    refine ⟨?_, ?_⟩
    · rcases hne with hne | hne
      · simp [hne]
      · simp [hne]
    · intro c hc
      rcases List.mem_append.mp hc with hc | hc
      · obtain ⟨d, hd, rfl⟩ := List.mem_map.mp hc
        obtain ⟨h1, h2, -⟩ := h.columns d (hcol d hd)
        exact (column_has d h1 h2).1
      · exact (h.raw c hc).1
  · intro c hc
    simp only [queryParts] at hc
    rw [textSelect_eq q exprs h] at hc
    have hm := List.mem_of_head? hc
    rcases List.mem_append.mp hm with hm | hm
    · obtain ⟨d, hd, rfl⟩ := List.mem_map.mp hm
      obtain ⟨h1, h2, h3, -⟩ := h.columns d (hcol d hd)
      rw [(column_has d h1 h2).2]
      exact readTop_as _ _ h3
    · exact readTop_none (h.raw c hm).2
  · exact (table_has _ h.base).keeps.1
  · intro j hj
    simp only [queryParts, List.mem_append, List.mem_map] at hj
    rcases hj with ⟨v, hv, rfl⟩ | ⟨d, hd, rfl⟩
    · exact (viewJoin_placed v (h.joins v hv)).1
    · obtain ⟨h1, -, h3⟩ := h.dates d hd
      refine ⟨h1.1, by simp, ?_⟩
      intro c hc
      rw [← Option.some.inj hc]
      exact h3
  · intro c hc
    simp only [queryParts] at hc
    rcases List.mem_append.mp hc with hc | hc
    · exact h.wheres c hc
    · exact entity_wheres q exprs h c hc
  · intro c hc
    simp only [queryParts, textGroup] at hc
    by_cases hg : q.noGroup = true
    · rw [if_pos hg] at hc
      cases hc
    · rw [if_neg hg, map_stripAlias h.exprs.1] at hc
      rcases List.mem_append.mp hc with hc | hc
      · obtain ⟨d, hd, rfl⟩ := List.mem_map.mp hc
        obtain ⟨h1, h2⟩ := h.groups d hd
        split_ifs
        · exact h2
        · exact h1
      · exact h.exprs.2 c hc
  · intro c hc
    simp only [queryParts] at hc
    split_ifs at hc
    · cases hc
    · exact h.havings c hc
  · intro o ho
    simp only [queryParts] at ho
    split_ifs at ho
    · cases ho
    · obtain ⟨p, hp, rfl⟩ := List.mem_map.mp ho
      exact h.order p hp

theorem asRead_wanted (q : TextQuery) (exprs : List (List Char)) (h : WellWritten q exprs) : asRead (queryParts q) = wanted q exprs := by
  have hcol : ∀ c ∈ (if q.noGroup then firsts q.rawColumns else q.columns), c ∈ q.columns ∨ c ∈ q.rawColumns := by
    intro c hc
    split_ifs at hc
    · exact Or.inr (firsts_sub _ c hc)
    · exact Or.inl hc
  have e1 : (asRead (queryParts q)).ctes = (wanted q exprs).ctes := by
    simp only [asRead, queryParts, wanted, List.map_append, List.map_map]
    congr 1
    apply List.map_congr_left
    intro e _
    simp only [Function.comp]
    rw [(filterName_has e.2).keeps.2]
  have e2 : (asRead (queryParts q)).top = (wanted q exprs).top := by
    simp only [asRead, queryParts, wanted, writesTop, limitClause]
    cases q.warehouse <;> simp only [Bool.false_eq_true, if_false, if_true] <;> try rfl
    all_goals
      cases q.limit with
      | none => rfl
      | some n =>
        by_cases hn : n = 0
        · subst hn
          rfl
        · simp [hn, Option.filter]
  have e3 : (asRead (queryParts q)).columns = (wanted q exprs).columns := by
    simp only [asRead, queryParts, wanted]
    rw [textSelect_eq q exprs h, List.map_append, List.map_map]
    congr 1
    apply List.map_congr_left
    intro c hc
    obtain ⟨h1, h2, -⟩ := h.columns c (hcol c hc)
    exact (column_has c h1 h2).2
  have e4 : (asRead (queryParts q)).source = (wanted q exprs).source := (table_has _ h.base).keeps.2
  have e5 : (asRead (queryParts q)).joins = (wanted q exprs).joins := by
    simp only [asRead, queryParts, wanted, List.map_append, List.map_map]
    congr 1
    apply List.map_congr_left
    intro j hj
    exact (viewJoin_placed j (h.joins j hj)).2
  have e6 : (asRead (queryParts q)).wheres = (wanted q exprs).wheres := by
    simp only [asRead, wanted]
    rw [allOf_eq]
    simp only [queryParts, List.map_append, List.map_map]
    congr 2
    apply List.map_congr_left
    intro e he
    obtain ⟨-, h2, h3⟩ := h.entities e.1 (List.fst_mem_of_mem_zipIdx he)
    exact (isin_has _ _ _ h2 h3).2
  have e7 : (asRead (queryParts q)).groupBy = (wanted q exprs).groupBy := by
    simp only [asRead, queryParts, wanted, textGroup]
    cases q.noGroup
    · simp only [Bool.false_eq_true, if_false]
      rw [map_stripAlias h.exprs.1, List.map_append, List.map_map]
      congr 1
      by_cases hb : q.warehouse = .bigquery
      · simp [hb]
      · simp [hb]
    · rfl
  have e8 : (asRead (queryParts q)).havings = (wanted q exprs).havings := by
    simp only [asRead, wanted]
    rw [allOf_eq]
    simp only [queryParts]
    cases q.noGroup <;> rfl
  have e9 : (asRead (queryParts q)).orderBy = (wanted q exprs).orderBy := by
    simp only [asRead, queryParts, wanted]
    cases q.noGroup
    · simp only [Bool.false_eq_true, if_false, List.map_map]
      apply List.map_congr_left
      intro o _
      simp only [Function.comp]
      cases q.warehouse <;> rfl
    · rfl
  have e10 : (asRead (queryParts q)).limit = (wanted q exprs).limit := by
    simp only [asRead, queryParts, wanted, writesTop, limitClause]
    cases q.warehouse <;> rfl
  cases ha : asRead (queryParts q)
  cases hw : wanted q exprs
  rw [ha] at e1 e2 e3 e4 e5 e6 e7 e8 e9 e10
  rw [hw] at e1 e2 e3 e4 e5 e6 e7 e8 e9 e10
  simp only at e1 e2 e3 e4 e5 e6 e7 e8 e9 e10
  subst e1 e2 e3 e4 e5 e6 e7 e8 e9 e10
  rfl

end ML
