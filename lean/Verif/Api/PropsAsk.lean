import Verif.Api.Props

/-!
# C67: what a question is answered with
-/

set_option autoImplicit false

namespace ML
open Spec

variable {P : Type}

theorem called_iff (c : Conn) (n : String) : c.called (some n) = true ↔ dictGet c.attrs "name" = some (.str n) := by
  unfold Conn.called
  cases hm : dictGet c.attrs "name" with
  | none => simp
  | some v => cases v <;> simp

theorem called_none (c : Conn) : c.called none = false := by
  unfold Conn.called
  cases hm : dictGet c.attrs "name" with
  | none => rfl
  | some v => cases v <;> rfl

theorem findConn_first (cs : List Conn) (n : Option String) : FirstCalled cs n (findConn cs n) := by
  unfold findConn
  cases h : cs.find? (fun c => c.called n) with
  | none =>
    intro c hc m hm hn
    subst hm
    exact absurd ((called_iff c m).mpr hn) (by simpa using List.find?_eq_none.mp h c hc)
  | some c =>
    obtain ⟨h1, pre, post, h2, h3⟩ := List.find?_eq_some_iff_append.mp h
    cases n with
    | none => rw [called_none] at h1; cases h1
    | some m =>
      exact ⟨m, pre, post, rfl, (called_iff c m).mp h1, h2,
        fun x hx hn => absurd ((called_iff x m).mpr hn) (by simpa using h3 x hx)⟩

/-- What `get_sql_query` returns of an answer. -/
theorem reply_ok {env : ApiEnv P} {kw : Kw} {r : Answered} {x : Reply} (h : reply env kw r = .ok x) :
    let sql := if On kw "pretty" then env.pretty r.sql else r.sql
    (On kw "return_connection" = true → x = .withConn sql r.conn) ∧
    (On kw "return_connection" = false → On kw "return_query_kind" = true → ∃ k, r.kind = some k ∧ x = .withKind sql k) ∧
    (On kw "return_connection" = false → On kw "return_query_kind" = false → x = .text sql) := by
  unfold reply at h
  unfold On
  simp only at h ⊢
  cases h1 : truthyOpt (dictGet kw "return_connection") with
  | true => rw [h1, if_pos rfl] at h; cases h; exact ⟨fun _ => rfl, fun h => by simp at h, fun h => by simp at h⟩
  | false =>
    rw [h1, if_neg (by simp)] at h
    cases h2 : truthyOpt (dictGet kw "return_query_kind") with
    | true =>
      rw [h2, if_pos rfl] at h
      cases hk : r.kind with
      | none => rw [hk] at h; cases h
      | some k =>
        rw [hk] at h; cases h
        exact ⟨fun h => by simp at h, fun _ _ => ⟨k, rfl, rfl⟩, fun _ h => by simp at h⟩
    | false =>
      rw [h2, if_neg (by simp)] at h; cases h
      exact ⟨fun h => by simp at h, fun _ h => by simp at h, fun _ _ => rfl⟩

/-- C67. **Metrics and dimensions.** The SQL that is returned is the resolver's answer about the project of the moment, for its user, with the
schema and the type of the first connection that has the name the model gives, and with the options of the call before those of the
constructor; a `query_type` among the options comes before the connection's. What is returned with it is that connection or the kind. -/
theorem C67_fields (env : ApiEnv P) (s : Session P) (a : Ask) (x : Reply) (hsql : a.sql.getD "" = "")
    (hq : a.metrics ≠ [] ∨ a.dimensions ≠ []) (hd : Dict a.kw) (h : (getSqlQuery env s a).2 = .ok x) :
    ∃ p cs n c t kw sql kind, s.project = some p ∧ loadConnections env.creds s.conns = .ok cs ∧
      env.modelConn p.content p.user ⟨a.metrics, a.dimensions, a.funnel, a.where_, a.having, a.orderBy⟩ (kwMerge s.kw a.kw) = .ok n ∧
      FirstCalled cs n c ∧
      (optionOf s.kw a.kw "query_type" = some t ∨
        optionOf s.kw a.kw "query_type" = none ∧ ∃ c', c = some c' ∧ dictGet c'.attrs "type" = some t) ∧
      (∀ k, dictGet kw k = if k = "query_type" then some t else optionOf s.kw a.kw k) ∧
      env.answer p.content p.lookup p.user (schemaIn c) t ⟨a.metrics, a.dimensions, a.funnel, a.where_, a.having, a.orderBy⟩ kw =
        .ok (sql, kind) ∧
      (let shown := if On a.kw "pretty" then env.pretty sql else sql
       (On a.kw "return_connection" = true → x = .withConn shown c) ∧
       (On a.kw "return_connection" = false → On a.kw "return_query_kind" = true → x = .withKind shown kind) ∧
       (On a.kw "return_connection" = false → On a.kw "return_query_kind" = false → x = .text shown)) := by
  unfold getSqlQuery at h
  simp only at h
  cases hr : (route env s a).2 with
  | error e => rw [hr] at h; cases h
  | ok r =>
    rw [hr] at h
    change reply env a.kw r = .ok x at h
    unfold route at hr
    rw [if_neg (by simpa using hsql), if_pos hq] at hr
    cases hu : inUse env s with
    | error e => rw [hu] at hr; cases hr
    | ok y =>
      obtain ⟨p, cs⟩ := y
      obtain ⟨hp, hc⟩ := inUse_ok hu
      rw [hu] at hr
      simp only at hr
      cases hw : callWith apiFieldNames (kwMerge s.kw a.kw) with
      | error e => rw [hw] at hr; cases hr
      | ok kw =>
        obtain ⟨rfl, _⟩ := callWith_ok hw
        rw [hw] at hr
        simp only at hr
        unfold ask at hr
        cases hm : env.modelConn p.content p.user ⟨a.metrics, a.dimensions, a.funnel, a.where_, a.having, a.orderBy⟩ (kwMerge s.kw a.kw) with
        | error e => rw [hm] at hr; cases hr
        | ok n =>
          rw [hm] at hr
          simp only at hr
          cases ht : queryTypeOf (findConn cs n) (kwMerge s.kw a.kw) with
          | error e => rw [ht] at hr; cases hr
          | ok t =>
            rw [ht] at hr
            simp only at hr
            cases ha : env.answer p.content p.lookup p.user (schemaOf (findConn cs n)) t
                ⟨a.metrics, a.dimensions, a.funnel, a.where_, a.having, a.orderBy⟩ (dictSet (kwMerge s.kw a.kw) "query_type" t) with
            | error e => rw [ha] at hr; cases hr
            | ok y =>
              obtain ⟨sql, kind⟩ := y
              rw [ha] at hr
              cases hr
              have hr' := reply_ok h
              refine ⟨p, cs, n, findConn cs n, t, dictSet (kwMerge s.kw a.kw) "query_type" t, sql, kind, hp, hc, hm, findConn_first cs n, ?_, ?_, ?_, ?_⟩
              · unfold queryTypeOf at ht
                rw [kwMerge_get _ _ hd] at ht
                cases ho : optionOf s.kw a.kw "query_type" with
                | some t' => rw [ho] at ht; cases ht; exact Or.inl rfl
                | none =>
                  rw [ho] at ht
                  simp only at ht
                  cases hf : findConn cs n with
                  | none => rw [hf] at ht; cases ht
                  | some c =>
                    rw [hf] at ht
                    refine Or.inr ⟨rfl, c, rfl, ?_⟩
                    change c.attr "type" = _ at ht
                    unfold Conn.attr at ht
                    cases hg : dictGet c.attrs "type" with
                    | none => rw [hg] at ht; cases ht
                    | some t' => rw [hg] at ht; cases ht; rfl
              · intro k
                rw [dictGet_set, kwMerge_get _ _ hd]
                by_cases hk : k = "query_type"
                · rw [if_pos hk, if_pos hk.symm]
                · rw [if_neg hk, if_neg (Ne.symm hk)]
              · rw [← ha]
                congr 1
                unfold schemaOf schemaIn
                cases findConn cs n <;> rfl
              · refine ⟨hr'.1, ?_, hr'.2.2⟩
                intro h1 h2
                obtain ⟨k, hk, hx⟩ := hr'.2.1 h1 h2
                cases hk; exact hx

/-- C67. **Which way of asking.** SQL comes before metrics and dimensions, and these before merged queries: what comes later is not looked at. With
none of the three the question is refused. -/
theorem C67_first (env : ApiEnv P) (s : Session P) (a b : Ask) (hkw : a.kw = b.kw) :
    (a.sql = b.sql → a.sql.getD "" ≠ "" → getSqlQuery env s a = getSqlQuery env s b) ∧
    (a.sql.getD "" = "" → (a.metrics ≠ [] ∨ a.dimensions ≠ []) → b = { a with merged := b.merged } →
      getSqlQuery env s a = getSqlQuery env s b) ∧
    (a.sql.getD "" = "" → a.metrics = [] → a.dimensions = [] →
      (a.merged = .list [] ∨ a.merged = .dict [] ∨ a.merged = .str "" → getSqlQuery env s a = (s, .error .query)) ∧
      ((∀ l, a.merged ≠ .list l) → (∀ d, a.merged ≠ .dict d) → (∀ t, a.merged ≠ .str t) → getSqlQuery env s a = (s, .error .typeError))) := by
  refine ⟨?_, ?_, ?_⟩
  · intro hs h
    have : route env s a = route env s b := by
      unfold route
      rw [if_pos h, if_pos (by rw [← hs]; exact h), ← hs, ← hkw]
    unfold getSqlQuery
    rw [this, hkw]
  · intro hs hq hb
    have : route env s a = route env s b := by
      rw [hb]
      unfold route
      rw [if_neg (by simpa using hs), if_pos hq]
      simp only
      rw [if_neg (by simpa using hs), if_pos hq]
    unfold getSqlQuery
    rw [this, hkw]
  · intro hs hm hd
    unfold getSqlQuery route
    rw [if_neg (by simpa using hs), if_neg (by simp [hm, hd])]
    refine ⟨?_, ?_⟩
    · rintro (hg | hg | hg) <;> rw [hg] <;> rfl
    · intro h1 h2 h3
      have : yamlLen a.merged = .error .typeError := by
        unfold yamlLen
        cases hm : a.merged with
        | list l => exact absurd hm (h1 l)
        | dict l => exact absurd hm (h2 l)
        | str l => exact absurd hm (h3 l)
        | _ => rfl
      rw [this]
      rfl

/-- C67. **What is refused.** A question about metrics or dimensions with an option under a name the question has itself raises TypeError; without
a connection for the model and without `query_type` it raises QueryError. -/
theorem C67_refused (env : ApiEnv P) (s : Session P) (p : Loaded P) (cs : List Conn) (a : Ask) (hsql : a.sql.getD "" = "")
    (hq : a.metrics ≠ [] ∨ a.dimensions ≠ []) (hp : s.project = some p) (hc : loadConnections env.creds s.conns = .ok cs) :
    ((∃ k ∈ (kwMerge s.kw a.kw).map (·.1),
        k ∈ ["self", "metrics", "dimensions", "funnel", "where", "having", "order_by", "project", "connections"]) → (getSqlQuery env s a).2 = .error .typeError) ∧
    ((∀ k ∈ (kwMerge s.kw a.kw).map (·.1),
        k ∉ ["self", "metrics", "dimensions", "funnel", "where", "having", "order_by", "project", "connections"]) → Dict a.kw → ∀ n,
      env.modelConn p.content p.user ⟨a.metrics, a.dimensions, a.funnel, a.where_, a.having, a.orderBy⟩ (kwMerge s.kw a.kw) = .ok n →
      FirstCalled cs n none → optionOf s.kw a.kw "query_type" = none → (getSqlQuery env s a).2 = .error .query) := by
  have hu : inUse env s = .ok (p, cs) := by unfold inUse; rw [hp]; simp only; rw [hc]; rfl
  refine ⟨?_, ?_⟩
  · rintro ⟨k, hk, hn⟩
    have hw : callWith apiFieldNames (kwMerge s.kw a.kw) = .error .typeError := by
      unfold callWith
      rw [if_pos]
      obtain ⟨x, hx, rfl⟩ := List.mem_map.mp hk
      exact List.any_eq_true.mpr ⟨x, hx, List.contains_iff_mem.mpr hn⟩
    unfold getSqlQuery route
    rw [if_neg (by simpa using hsql), if_pos hq, hu]
    simp only
    rw [hw]
    rfl
  · intro hn hd n hm hf ho
    have hw : callWith apiFieldNames (kwMerge s.kw a.kw) = .ok (kwMerge s.kw a.kw) := by
      unfold callWith
      rw [if_neg]
      intro h
      obtain ⟨x, hx, h⟩ := List.any_eq_true.mp h
      exact hn x.1 (List.mem_map.mpr ⟨x, hx, rfl⟩) (List.contains_iff_mem.mp h)
    have hfind : findConn cs n = none := by
      unfold findConn
      rw [List.find?_eq_none]
      intro c hc' h
      cases n with
      | none => rw [called_none] at h; cases h
      | some m => exact hf c hc' m rfl ((called_iff c m).mp h)
    have ht : queryTypeOf (none : Option Conn) (kwMerge s.kw a.kw) = .error .query := by
      unfold queryTypeOf
      rw [kwMerge_get _ _ hd, ho]
    unfold getSqlQuery route
    rw [if_neg (by simpa using hsql), if_pos hq, hu]
    simp only
    rw [hw]
    simp only
    unfold ask
    rw [hm]
    simp only
    rw [hfind, ht]
    rfl

/-- C67, against the claim: the connection that is returned for SQL with MQL in it, and for merged queries, is always None, because it is read
before the question is resolved; and asking for the kind of SQL raises UnboundLocalError. -/
theorem C67_no_connection (env : ApiEnv P) (s : Session P) (a : Ask) (h : a.sql.getD "" ≠ "" ∨ (a.metrics = [] ∧ a.dimensions = [])) :
    (∀ sql c, (getSqlQuery env s a).2 = .ok (.withConn sql c) → c = none) ∧
    (a.sql.getD "" ≠ "" → On a.kw "return_connection" = false → On a.kw "return_query_kind" = true →
      ∀ x, (getSqlQuery env s a).2 ≠ .ok x) := by
  have hc : ∀ r, (route env s a).2 = .ok r → r.conn = none ∧ (a.sql.getD "" ≠ "" → r.kind = none) := by
    intro r hr
    unfold route at hr
    by_cases h1 : a.sql.getD "" ≠ ""
    · rw [if_pos h1] at hr
      cases hu : inUse env s with
      | error e => rw [hu] at hr; cases hr
      | ok y =>
        rw [hu] at hr
        simp only at hr
        cases hw : callWith apiSqlNames (kwMerge s.kw a.kw) with
        | error e => rw [hw] at hr; cases hr
        | ok kw =>
          rw [hw] at hr
          simp only at hr
          cases hx : (askSql env y.1 y.2 kw (a.sql.getD "")).2 with
          | error e => rw [hx] at hr; cases hr
          | ok t => rw [hx] at hr; cases hr; exact ⟨rfl, fun _ => rfl⟩
    · rw [if_neg h1] at hr
      obtain ⟨hm, hd⟩ := h.resolve_left h1
      rw [if_neg (by simp [hm, hd])] at hr
      cases hl : yamlLen a.merged with
      | error e => rw [hl] at hr; cases hr
      | ok n =>
        rw [hl] at hr
        cases n with
        | zero => cases hr
        | succ n =>
          simp only at hr
          cases hu : inUse env s with
          | error e => rw [hu] at hr; cases hr
          | ok y =>
            rw [hu] at hr
            simp only at hr
            cases hw : callWith apiMergedNames (kwMerge s.kw (a.kw.filter (fun x => x.1 ≠ "merged_result"))) with
            | error e => rw [hw] at hr; cases hr
            | ok kw =>
              rw [hw] at hr
              simp only at hr
              cases hx : (env.mergedAnswer y.1.content y.1.lookup y.1.user y.2 a kw).2 with
              | error e => rw [hx] at hr; cases hr
              | ok t => rw [hx] at hr; cases hr; exact ⟨rfl, fun hs => absurd hs h1⟩
  unfold getSqlQuery
  simp only
  cases hr : (route env s a).2 with
  | error e =>
    refine ⟨fun _ _ h => ?_, fun _ _ _ _ h => ?_⟩
    · cases h
    · cases h
  | ok r =>
    refine ⟨?_, ?_⟩
    · intro sql c hx
      change reply env a.kw r = _ at hx
      have h3 := reply_ok hx
      cases hrc : On a.kw "return_connection" with
      | true => have := h3.1 hrc; cases this; exact (hc r hr).1
      | false =>
        cases hrk : On a.kw "return_query_kind" with
        | true => obtain ⟨k, _, h4⟩ := h3.2.1 hrc hrk; cases h4
        | false => have := h3.2.2 hrc hrk; cases this
    · intro hs h1 h2 x hx
      change reply env a.kw r = _ at hx
      obtain ⟨k, hk, _⟩ := (reply_ok hx).2.1 h1 h2
      rw [(hc r hr).2 hs] at hk
      cases hk

end ML
