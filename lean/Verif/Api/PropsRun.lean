import Verif.Api.PropsAsk

/-!
# C67: what is executed, the types of the connections and the names of the tables
-/

set_option autoImplicit false

namespace ML
open Spec

variable {P : Type}

/-- What `query` hands on. -/
theorem queryAsk_fields (a : Ask) (kw : Kw) :
    (queryAsk a kw).metrics = a.metrics ∧ (queryAsk a kw).dimensions = a.dimensions ∧ (queryAsk a kw).funnel = a.funnel ∧
    (queryAsk a kw).where_ = a.where_ ∧ (queryAsk a kw).having = a.having ∧ (queryAsk a kw).orderBy = a.orderBy ∧
    (queryAsk a kw).sql = a.sql ∧ On (queryAsk a kw).kw "return_connection" = true ∧ dictGet (queryAsk a kw).kw "merged_queries" = none ∧
    ∀ k, k ≠ "merged_queries" → k ≠ "return_connection" → dictGet (queryAsk a kw).kw k = dictGet kw k := by
  refine ⟨rfl, rfl, rfl, rfl, rfl, rfl, rfl, ?_, ?_, ?_⟩
  · unfold On queryAsk
    simp only
    rw [dictGet_set, if_pos rfl]
    rfl
  · unfold queryAsk
    simp only
    rw [dictGet_set, if_neg (by decide)]
    rw [dictGet_filter_ne, if_pos rfl]
  · intro k h1 h2
    unfold queryAsk
    simp only
    rw [dictGet_set, if_neg (Ne.symm h2)]
    rw [dictGet_filter_ne, if_neg h1]

/-- C67. **What is executed** is the SQL that `get_sql_query` returns for the same question, last, on the connection it returns: one of
the four kinds that can be executed. -/
theorem C67_runs (env : ApiEnv P) (s : Session P) (a : Ask) (x : Execution) (hd : Dict a.kw) (h : (runAsk env s a).2 = .ok x) :
    (a.sql.getD "" = "" ∧ (a.metrics ≠ [] ∨ a.dimensions ≠ [])) ∧
    ∃ b sql c t, b.metrics = a.metrics ∧ b.dimensions = a.dimensions ∧ b.funnel = a.funnel ∧ b.where_ = a.where_ ∧
      b.having = a.having ∧ b.orderBy = a.orderBy ∧ b.sql = a.sql ∧
      (∀ k, k ≠ "merged_queries" → k ≠ "return_connection" → dictGet b.kw k = optionOf s.kw a.kw k) ∧
      (getSqlQuery env s b).2 = .ok (.withConn sql (some c)) ∧ x.conn = c ∧ dictGet c.attrs "type" = some (.str t) ∧
      t ∈ ["SNOWFLAKE", "BIGQUERY", "REDSHIFT", "POSTGRES"] ∧
      x.timeout = (optionOf s.kw a.kw "timeout").getD (.int 180) ∧
      (optionOf s.kw a.kw "raw_cursor" = none → ∃ pre, x.texts = pre ++ [sql] ∧ pre.length ≤ 1 ∧ (t ≠ "SNOWFLAKE" → pre = [])) := by
  unfold runAsk at h
  cases hw : callWith queryNames (kwMerge s.kw a.kw) with
  | error e => rw [hw] at h; cases h
  | ok kw =>
    obtain ⟨rfl, _⟩ := callWith_ok hw
    rw [hw] at h
    simp only at h
    obtain ⟨f1, f2, f3, f4, f5, f6, f7, f8, f9, f10⟩ := queryAsk_fields a (kwMerge s.kw a.kw)
    cases hg : (getSqlQuery env s (queryAsk a (kwMerge s.kw a.kw))).2 with
    | error e => rw [hg] at h; cases h
    | ok r =>
      rw [hg] at h
      cases r with
      | text _ => cases h
      | withKind _ _ => cases h
      | withConn sql c =>
        change (callWith ["self", "query", "connection"] a.kw).bind _ = _ at h
        cases hw2 : callWith ["self", "query", "connection"] a.kw with
        | error e => rw [hw2] at h; cases h
        | ok kw2 =>
          obtain ⟨rfl, _⟩ := callWith_ok hw2
          rw [hw2] at h
          change runQuery env.render sql c (kwMerge s.kw a.kw) = .ok x at h
          cases c with
          | none => rw [(C66_not_run env.creds env.render sql _).1] at h; cases h
          | some c =>
            obtain ⟨g1, g2, g3, t, g4, g5, g6, g7, g8⟩ := C66_run env.render sql c _ x h
            rw [kwMerge_get _ _ hd] at g2 g3
            refine ⟨?_, queryAsk a (kwMerge s.kw a.kw), sql, c, t, f1, f2, f3, f4, f5, f6, f7, ?_, hg, g1, g4, g5, g2, ?_⟩
            · by_contra hn
              have : a.sql.getD "" ≠ "" ∨ (a.metrics = [] ∧ a.dimensions = []) := by
                by_cases h1 : a.sql.getD "" = ""
                · right
                  by_contra h2
                  apply hn
                  refine ⟨h1, ?_⟩
                  by_contra h3
                  apply h2
                  push Not at h3
                  exact h3
                · exact Or.inl h1
              have := (C67_no_connection env s (queryAsk a (kwMerge s.kw a.kw)) this).1 sql (some c) hg
              cases this
            · intro k h1 h2
              rw [f10 k h1 h2, kwMerge_get _ _ hd]
            · intro hr
              simp only [List.mem_cons, List.not_mem_nil, or_false] at g5
              rcases g5 with rfl | rfl | rfl | rfl
              · obtain ⟨pre, p1, p2⟩ := g8 rfl
                exact ⟨pre, p1, p2, fun h => absurd rfl h⟩
              · exact ⟨[], g6 (Or.inl rfl), by simp, fun _ => rfl⟩
              · exact ⟨[], g6 (Or.inr rfl), by simp, fun _ => rfl⟩
              · refine ⟨[], ?_, by simp, fun _ => rfl⟩
                rw [kwMerge_get _ _ hd, hr] at g7
                exact g7 rfl

/-- C67, against the claim: SQL with MQL in it, and merged queries, are never executed by `query`, although `get_sql_query` answers them. When
the SQL could be made, AttributeError is raised. -/
theorem C67_never_runs (env : ApiEnv P) (s : Session P) (a : Ask) (hd : Dict a.kw)
    (h : a.sql.getD "" ≠ "" ∨ (a.metrics = [] ∧ a.dimensions = [])) :
    (∀ x, (runAsk env s a).2 ≠ .ok x) ∧
    ∀ kw r, callWith queryNames (kwMerge s.kw a.kw) = .ok kw → callWith ["self", "query", "connection"] a.kw = .ok a.kw →
      (getSqlQuery env s (queryAsk a kw)).2 = .ok r → (runAsk env s a).2 = .error .attributeError := by
  refine ⟨?_, ?_⟩
  · intro x hx
    obtain ⟨⟨h1, h2⟩, _⟩ := C67_runs env s a x hd hx
    rcases h with h | ⟨h3, h4⟩
    · exact h h1
    · rcases h2 with h2 | h2
      · exact h2 h3
      · exact h2 h4
  · intro kw r hw hw2 hg
    obtain ⟨f1, f2, _, _, _, _, f7, f8, _, _⟩ := queryAsk_fields a kw
    have hr : ∃ sql c, r = .withConn sql c := by
      unfold getSqlQuery at hg
      cases hq : (route env s (queryAsk a kw)).2 with
      | error e => simp only at hg; rw [hq] at hg; cases hg
      | ok y =>
        simp only at hg
        rw [hq] at hg
        exact ⟨_, _, (reply_ok (show reply env (queryAsk a kw).kw y = .ok r from hg)).1 f8⟩
    obtain ⟨sql, c, rfl⟩ := hr
    have hc := (C67_no_connection env s (queryAsk a kw) (by rw [f1, f2, f7]; exact h)).1 sql c hg
    subst hc
    unfold runAsk
    rw [hw]
    simp only
    rw [hg]
    change (callWith ["self", "query", "connection"] a.kw).bind _ = _
    rw [hw2]
    rfl

theorem addLookup_get (d : List (String × Yaml)) (c : Conn) (n : String) :
    (dictGet c.attrs "name" ≠ some (.str n) → dictGet (addLookup d c) n = dictGet d n) ∧
    (∀ t, dictGet c.attrs "name" = some (.str n) → dictGet c.attrs "type" = some t → dictGet (addLookup d c) n = some t) := by
  unfold addLookup
  refine ⟨?_, ?_⟩
  · intro h
    cases h1 : dictGet c.attrs "name" with
    | none => rfl
    | some v =>
      cases v with
      | str m =>
        cases h2 : dictGet c.attrs "type" with
        | none => rfl
        | some t =>
          simp only
          rw [dictGet_set, if_neg]
          intro hm
          apply h
          rw [h1, hm]
      | _ => rfl
  · intro t h1 h2
    rw [h1, h2]
    simp only
    rw [dictGet_set, if_pos rfl]

/-- C67. **The types the project is given.** At a load each name stands for the type of the last connection that has it, whereas a query
asks the first (`C67_fields`); a connection that is added later is not among them until the next load. -/
theorem C67_types (env : ApiEnv P) (s : Session P) (fetched : Res (P × List String)) (h : ((ApiOp.load fetched).run env s).2 = .ok .done)
    (hl : s.location ≠ none) :
    ∃ p cs, ((ApiOp.load fetched).run env s).1.project = some p ∧ loadConnections env.creds s.conns = .ok cs ∧
      ∀ n, ∃ c, LastCalled cs n c ∧
        (c = none → dictGet p.lookup n = none) ∧ (∀ c' t, c = some c' → dictGet c'.attrs "type" = some t → dictGet p.lookup n = some t) := by
  change (loadInto env s fetched).2 = _ at h
  change ∃ p cs, (loadInto env s fetched).1.project = some p ∧ _
  unfold loadInto at h ⊢
  cases hloc : s.location with
  | none => exact absurd hloc hl
  | some l =>
    rw [hloc] at h
    simp only at h ⊢
    cases hc : loadConnections env.creds s.conns with
    | error e => rw [hc] at h; cases h
    | ok cs =>
      rw [hc] at h
      simp only at h ⊢
      cases fetched with
      | error e => cases h
      | ok y =>
        refine ⟨_, cs, rfl, rfl, fun n => ?_⟩
        simp only
        unfold lookupOf
        suffices key : ∀ (cs : List Conn) (d : List (String × Yaml)), ∃ c, LastCalled cs n c ∧
            (c = none → dictGet (cs.foldl addLookup d) n = dictGet d n) ∧
            (∀ c' t, c = some c' → dictGet c'.attrs "type" = some t → dictGet (cs.foldl addLookup d) n = some t) from key cs []
        intro cs
        induction cs with
        | nil => intro d; exact ⟨none, (fun c hc => by cases hc), fun _ => rfl, fun _ _ h => by cases h⟩
        | cons a cs ih =>
          intro d
          obtain ⟨c, h1, h2, h3⟩ := ih (addLookup d a)
          cases c with
          | some c =>
            obtain ⟨pre, post, g1, g2, g3⟩ := h1
            exact ⟨some c, ⟨a :: pre, post, g1, by rw [g2]; rfl, g3⟩, (fun h => by cases h), h3⟩
          | none =>
            by_cases ha : dictGet a.attrs "name" = some (.str n)
            · refine ⟨some a, ⟨[], cs, ha, rfl, h1⟩, (fun h => by cases h), fun c' t hc' ht => ?_⟩
              cases hc'
              rw [List.foldl_cons, h2 rfl]
              exact (addLookup_get d a n).2 t ha ht
            · refine ⟨none, ?_, fun _ => ?_, fun _ _ h => by cases h⟩
              · intro c hc'
                rcases List.mem_cons.mp hc' with rfl | hc'
                · exact ha
                · exact h1 c hc'
              · rw [List.foldl_cons, h2 rfl]
                exact (addLookup_get d a n).1 ha

/-- C67, against the claim: the name of a table that is told outside a query is told with the schema of the connection of the last query.
After a query about metrics or dimensions it is that of the connection of its model; after a load it is told without a schema. -/
theorem C67_table_name (env : ApiEnv P) (s : Session P) :
    (∀ a x v, a.sql.getD "" = "" → (a.metrics ≠ [] ∨ a.dimensions ≠ []) → Dict a.kw → (getSqlQuery env s a).2 = .ok x →
      ∃ p cs n c, s.project = some p ∧ loadConnections env.creds s.conns = .ok cs ∧
        env.modelConn p.content p.user ⟨a.metrics, a.dimensions, a.funnel, a.where_, a.having, a.orderBy⟩ (kwMerge s.kw a.kw) = .ok n ∧
        FirstCalled cs n c ∧
        ((ApiOp.tableName v).run env ((ApiOp.getSql a).run env s).1).2 = (env.tableName p.content p.user (schemaIn c) v).map .text) ∧
    (∀ content branches v, s.location ≠ none → ((ApiOp.load (.ok (content, branches))).run env s).2 = .ok .done →
      ((ApiOp.tableName v).run env ((ApiOp.load (.ok (content, branches))).run env s).1).2 =
        (env.tableName content s.user .null v).map .text) := by
  refine ⟨?_, ?_⟩
  · intro a x v hsql hq hd h
    show ∃ p cs n c, _ ∧ _ ∧ _ ∧ _ ∧ ((ApiOp.tableName v).run env (getSqlQuery env s a).1).2 = _
    unfold getSqlQuery at h ⊢
    simp only at h ⊢
    cases hr : (route env s a).2 with
    | error e => rw [hr] at h; cases h
    | ok r =>
      unfold route at hr ⊢
      rw [if_neg (by simpa using hsql), if_pos hq] at hr ⊢
      cases hu : inUse env s with
      | error e => rw [hu] at hr; cases hr
      | ok y =>
        obtain ⟨p, cs⟩ := y
        obtain ⟨hp, hc⟩ := inUse_ok hu
        rw [hu] at hr
        simp only at hr ⊢
        cases hw : callWith apiFieldNames (kwMerge s.kw a.kw) with
        | error e => rw [hw] at hr; cases hr
        | ok kw =>
          obtain ⟨rfl, _⟩ := callWith_ok hw
          rw [hw] at hr
          simp only at hr ⊢
          cases hm : env.modelConn p.content p.user ⟨a.metrics, a.dimensions, a.funnel, a.where_, a.having, a.orderBy⟩ (kwMerge s.kw a.kw) with
          | error e => unfold ask at hr; rw [hm] at hr; cases hr
          | ok n =>
            refine ⟨p, cs, n, findConn cs n, hp, hc, hm, findConn_first cs n, ?_⟩
            unfold ask at hr ⊢
            rw [hm] at hr ⊢
            simp only at hr ⊢
            cases ht : queryTypeOf (findConn cs n) (kwMerge s.kw a.kw) with
            | error e => rw [ht] at hr; cases hr
            | ok t =>
              unfold ApiOp.run
              simp only
              congr 2
              unfold schemaOf schemaIn
              cases findConn cs n <;> rfl
  · intro content branches v hl h
    change (loadInto env s _).2 = _ at h
    show ((ApiOp.tableName v).run env (loadInto env s _).1).2 = _
    unfold loadInto at h ⊢
    cases hloc : s.location with
    | none => exact absurd hloc hl
    | some l =>
      rw [hloc] at h
      simp only at h ⊢
      cases hc : loadConnections env.creds s.conns with
      | error e => rw [hc] at h; cases h
      | ok cs => rfl

end ML
