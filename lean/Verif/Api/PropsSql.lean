import Verif.Api.Examples
import Verif.Mql.Props

/-!
# C67: SQL with MQL in it
-/

set_option autoImplicit false

namespace ML
open Spec

variable {P : Type}

theorem questOf_asks (m : MqlQuery) : AsksFor m (questOf m) := by
  refine ⟨rfl, rfl, fun c => ⟨?_, ?_, ?_⟩, ?_, ?_, ?_, ?_, ?_⟩
  · intro h; show clauseYaml m.where_ = _; rw [h]; rfl
  · intro h; show clauseYaml m.having = _; rw [h]; rfl
  · intro h; show clauseYaml m.orderBy = _; rw [h]; rfl
  · intro h; show clauseYaml m.where_ = _; rw [h]; rfl
  · intro h; show clauseYaml m.having = _; rw [h]; rfl
  · intro h; show clauseYaml m.orderBy = _; rw [h]; rfl
  · intro h; show funnelYaml m.funnel = _; rw [h]; rfl
  · intro f h
    refine ⟨[("steps", .list (f.steps.map .str)), ("within", .dict [("value", .int f.value), ("unit", .str f.unit)])] ++
      (match f.viewName with | some v => [("view_name", .str v)] | none => []), _, ?_, rfl, rfl, rfl, rfl, ?_⟩
    · show funnelYaml m.funnel = _; rw [h]; rfl
    · cases f.viewName <;> rfl

theorem callWith_mem {names : List String} {kw : Kw} (h : ∃ k ∈ kw.map (·.1), k ∈ names) : callWith names kw = .error .typeError := by
  obtain ⟨k, hk, hn⟩ := h
  unfold callWith
  rw [if_pos]
  obtain ⟨x, hx, rfl⟩ := List.mem_map.mp hk
  exact List.any_eq_true.mpr ⟨x, hx, List.contains_iff_mem.mpr hn⟩

theorem callWith_not {names : List String} {kw : Kw} (h : ∀ k ∈ kw.map (·.1), k ∉ names) : callWith names kw = .ok kw := by
  unfold callWith
  rw [if_neg]
  intro hx
  obtain ⟨x, hx, hh⟩ := List.any_eq_true.mp hx
  exact h x.1 (List.mem_map.mpr ⟨x, hx, rfl⟩) (List.contains_iff_mem.mp hh)

/-- The answer to a question, as an equation. -/
theorem ask_ok {env : ApiEnv P} {p : Loaded P} {cs : List Conn} {q : Quest} {kw : Kw} {r : Answered} (h : (ask env p cs q kw).2 = .ok r) :
    ∃ n t, env.modelConn p.content p.user q kw = .ok n ∧
      (dictGet kw "query_type" = some t ∨ dictGet kw "query_type" = none ∧ ∃ c, findConn cs n = some c ∧ dictGet c.attrs "type" = some t) ∧
      (ask env p cs q kw).1 = { p with schema := schemaIn (findConn cs n) } ∧
      ∃ kind, env.answer p.content p.lookup p.user (schemaIn (findConn cs n)) t q (dictSet kw "query_type" t) = .ok (r.sql, kind) := by
  unfold ask at h ⊢
  have hsch : ∀ c : Option Conn, schemaOf c = schemaIn c := by intro c; cases c <;> rfl
  cases hm : env.modelConn p.content p.user q kw with
  | error e => rw [hm] at h; cases h
  | ok n =>
    rw [hm] at h
    simp only at h ⊢
    cases ht : queryTypeOf (findConn cs n) kw with
    | error e => rw [ht] at h; cases h
    | ok t =>
      rw [ht] at h
      simp only at h ⊢
      rw [hsch] at h ⊢
      refine ⟨n, t, rfl, ?_, rfl, ?_⟩
      · unfold queryTypeOf at ht
        cases ho : dictGet kw "query_type" with
        | some t' => rw [ho] at ht; cases ht; exact Or.inl rfl
        | none =>
          rw [ho] at ht
          simp only at ht
          cases hf : findConn cs n with
          | none => rw [hf] at ht; cases ht
          | some c =>
            rw [hf] at ht
            refine Or.inr ⟨rfl, c, rfl, ?_⟩
            change c.attr "type" = _ at ht
            unfold Conn.attr at ht
            cases hg : dictGet c.attrs "type" with
            | none => rw [hg] at ht; cases ht
            | some t' => rw [hg] at ht; cases ht; rfl
      · cases ha : env.answer p.content p.lookup p.user (schemaIn (findConn cs n)) t q (dictSet kw "query_type" t) with
        | error e => rw [ha] at h; cases h
        | ok y => rw [ha] at h; cases h; exact ⟨_, rfl⟩

/-- C67. **SQL with MQL in it.** What is returned is the SQL as C65 says, for which each statement of MQL is answered as the question it asks
would be: about the project of the moment, for its user, with the type and the schema of the connection of its model, and with the options of the call
before those of the constructor. The connection with it is None, and the kind can not be told. -/
theorem C67_sql (env : ApiEnv P) (s : Session P) (a : Ask) (p : Loaded P) (cs : List Conn) (hsql : a.sql.getD "" ≠ "") (hd : Dict a.kw)
    (hp : s.project = some p) (hc : loadConnections env.creds s.conns = .ok cs)
    (hn : ∀ k ∈ (kwMerge s.kw a.kw).map (·.1), k ∉ ["self", "sql", "project", "connections"]) :
    ∃ answers : MqlQuery → Res String,
      (∀ m, (∃ k ∈ (kwMerge s.kw a.kw).map (·.1), k ∈ ["metrics", "dimensions", "funnel", "where", "having", "order_by"]) →
        answers m = .error .typeError) ∧
      (∀ m t, answers m = .ok t → ∃ q n c ty kw kind, AsksFor m q ∧ env.modelConn p.content p.user q (kwMerge s.kw a.kw) = .ok n ∧ FirstCalled cs n c ∧
        (optionOf s.kw a.kw "query_type" = some ty ∨
          optionOf s.kw a.kw "query_type" = none ∧ ∃ c', c = some c' ∧ dictGet c'.attrs "type" = some ty) ∧
        (∀ k, dictGet kw k = if k = "query_type" then some ty else optionOf s.kw a.kw k) ∧
        env.answer p.content p.lookup p.user (schemaIn c) ty q kw = .ok (t, kind)) ∧
      (∀ e, convertSql ⟨env.int, answers⟩ (a.sql.getD "") (env.tokens (a.sql.getD "")) = .error e → (getSqlQuery env s a).2 = .error e) ∧
      ∀ t, convertSql ⟨env.int, answers⟩ (a.sql.getD "") (env.tokens (a.sql.getD "")) = .ok t →
        let shown := if On a.kw "pretty" then env.pretty t else t
        (getSqlQuery env s a).2 =
          if On a.kw "return_connection" then .ok (.withConn shown none)
          else if On a.kw "return_query_kind" then .error .unboundLocal else .ok (.text shown) := by
  have hu : inUse env s = .ok (p, cs) := by unfold inUse; rw [hp]; simp only; rw [hc]; rfl
  refine ⟨fun q => (askMql env p cs (kwMerge s.kw a.kw) q).2, ?_, ?_, ?_, ?_⟩
  · rintro m ⟨k, hk, hm⟩
    beta_reduce
    unfold askMql
    rw [callWith_mem ⟨k, hk, by revert hm; unfold mqlNames; simp only [List.mem_cons, List.not_mem_nil, or_false]; tauto⟩]
  · intro m t h
    beta_reduce at h
    unfold askMql at h
    cases hw : callWith mqlNames (kwMerge s.kw a.kw) with
    | error e => rw [hw] at h; cases h
    | ok kw =>
      obtain ⟨rfl, _⟩ := callWith_ok hw
      rw [hw] at h
      simp only at h
      cases hr : (ask env p cs (questOf m) (kwMerge s.kw a.kw)).2 with
      | error e => rw [hr] at h; cases h
      | ok r =>
        rw [hr] at h
        cases h
        obtain ⟨n, ty, h1, h2, _, kind, h4⟩ := ask_ok hr
        rw [kwMerge_get _ _ hd] at h2
        refine ⟨questOf m, n, findConn cs n, ty, _, kind, questOf_asks m, h1, findConn_first cs n, h2, ?_, h4⟩
        intro k
        rw [dictGet_set, kwMerge_get _ _ hd]
        by_cases hk : k = "query_type"
        · rw [if_pos hk, if_pos hk.symm]
        · rw [if_neg hk, if_neg (Ne.symm hk)]
  · intro e he
    unfold getSqlQuery route
    rw [if_pos hsql, hu]
    simp only
    rw [show callWith apiSqlNames (kwMerge s.kw a.kw) = .ok (kwMerge s.kw a.kw) from callWith_not hn]
    simp only
    show (Except.map _ (convertSql _ _ _)).bind _ = _
    rw [he]
    rfl
  · intro t ht shown
    unfold getSqlQuery route
    rw [if_pos hsql, hu]
    simp only
    rw [show callWith apiSqlNames (kwMerge s.kw a.kw) = .ok (kwMerge s.kw a.kw) from callWith_not hn]
    simp only
    show (Except.map _ (convertSql _ _ _)).bind _ = _
    rw [ht]
    show reply env a.kw ⟨t, none, none⟩ = _
    unfold reply On
    simp only
    rfl

/-- C67. **What is refused of SQL, merged queries and `query`**: an option under a name the way of asking has itself raises TypeError. -/
theorem C67_refused_others (env : ApiEnv P) (s : Session P) (p : Loaded P) (cs : List Conn) (a : Ask)
    (hp : s.project = some p) (hc : loadConnections env.creds s.conns = .ok cs) :
    (a.sql.getD "" ≠ "" → (∃ k ∈ (kwMerge s.kw a.kw).map (·.1), k ∈ ["self", "sql", "project", "connections"]) →
      (getSqlQuery env s a).2 = .error .typeError) ∧
    (∀ x l, a.sql.getD "" = "" → a.metrics = [] → a.dimensions = [] → a.merged = .list (x :: l) →
      (∃ k ∈ (kwMerge s.kw (a.kw.filter fun x => x.1 ≠ "merged_result")).map (·.1),
        k ∈ ["self", "merged_queries", "where", "having", "order_by", "project", "connections"]) →
      (getSqlQuery env s a).2 = .error .typeError) ∧
    ((∃ k ∈ (kwMerge s.kw a.kw).map (·.1),
        k ∈ ["sql", "metrics", "dimensions", "funnel", "where", "having", "order_by", "return_connection"]) →
      (runAsk env s a).2 = .error .typeError) := by
  have hu : inUse env s = .ok (p, cs) := by unfold inUse; rw [hp]; simp only; rw [hc]; rfl
  refine ⟨?_, ?_, ?_⟩
  · intro hsql hk
    unfold getSqlQuery route
    rw [if_pos hsql, hu]
    simp only
    rw [show callWith apiSqlNames (kwMerge s.kw a.kw) = _ from callWith_mem hk]
    rfl
  · intro x l hsql hm hd hg hk
    unfold getSqlQuery route
    rw [if_neg (by simpa using hsql), if_neg (by simp [hm, hd]), hg, hu]
    simp only [yamlLen, List.length_cons]
    rw [show callWith apiMergedNames _ = _ from callWith_mem hk]
    rfl
  · intro hk
    unfold runAsk
    rw [show callWith queryNames (kwMerge s.kw a.kw) = _ from callWith_mem hk]

theorem hasMql {t : Top} {c : MqlCall} {al : String} (h : Has t c al) : upper c.name = "MQL" := by
  rw [← callIn_mql]
  obtain ⟨hc, _, ht⟩ := h
  rcases ht with ⟨rfl, _⟩ | ⟨rfl, _⟩ <;>
  · cases hm : callIn.IsMql c with
    | true => rfl
    | false => simp [callIn, hm] at hc

/-- The calls that are asked, if every token is either left alone or has a call at its beginning. -/
theorem callsOf_eq (tops : List Top) (h : ∀ t ∈ tops, Stays t ∨ ∃ c al, Has t c al) :
    callsOf tops = (tops.filterMap callIn).map (·.args) := by
  induction tops with
  | nil => rfl
  | cons t ts ih =>
    have ih := ih (fun u hu => h u (List.mem_cons_of_mem _ hu))
    unfold callsOf at ih ⊢
    rw [List.filterMap_cons, List.filterMap_cons]
    rcases h t List.mem_cons_self with hs | ⟨c, al, hh⟩
    · have hnone : callIn t = none := hs.1
      rw [hnone]
      simp only
      rw [← ih]
      cases t with
      | other s => rfl
      | call c =>
        have : upper c.name ≠ "MQL" := by
          intro hm
          change (if callIn.IsMql c = true then some c else none) = none at hnone
          rw [if_pos (by rw [← callIn_mql] at hm; exact hm)] at hnone
          cases hnone
        simp only [if_neg this]
      | ident s hd =>
        cases hd with
        | call c =>
          have : upper c.name ≠ "MQL" := by
            intro hm
            change (if callIn.IsMql c = true then some c else none) = none at hnone
            rw [if_pos (by rw [← callIn_mql] at hm; exact hm)] at hnone
            cases hnone
          simp only
          rw [if_neg (fun e => this e.2.2)]
        | group => rfl
        | leaf => rfl
    · have hm := hasMql hh
      rw [hh.1]
      simp only [List.map_cons]
      rw [← ih]
      rcases hh.2.2 with ⟨rfl, _⟩ | ⟨rfl, hw⟩
      · simp only [if_pos hm]
      · simp only
        rw [if_pos]
        refine ⟨fun e => hw ((upper_eq_iff _ _).mp e), ?_, hm⟩
        have e : (upper (c.text ++ al)).toList = c.text.toList.map Char.toUpper ++ al.toList.map Char.toUpper := by simp [upper]
        rw [e]
        exact containsSub_prefix _ _ _ hh.2.1

theorem readMql_int (i : String → Option Int) (f g : MqlQuery → Res String) (ts : List MqlTok) : readMql ⟨i, f⟩ ts = readMql ⟨i, g⟩ ts := by
  have h : ∀ (ts : List MqlTok) st, mqlLoop ⟨i, f⟩ st ts = mqlLoop ⟨i, g⟩ st ts := by
    intro ts
    induction ts with
    | nil => intro st; rfl
    | cons t ts ih =>
      intro st
      show (mqlStep ⟨i, f⟩ st t).bind (fun st => mqlLoop ⟨i, f⟩ st ts) = (mqlStep ⟨i, g⟩ st t).bind fun st => mqlLoop ⟨i, g⟩ st ts
      have e : mqlStep ⟨i, f⟩ st t = mqlStep ⟨i, g⟩ st t := rfl
      rw [e]
      cases mqlStep ⟨i, g⟩ st t with
      | error e => rfl
      | ok st => exact ih st
  unfold readMql
  rw [h]

/-- If the SQL could be converted, every call in it could be. -/
theorem convertAll_calls {env : MqlEnv} {sql : String} (tops : List Top) : ∀ (conv out : String), convertAll env sql conv tops = .ok out →
    ∀ ts ∈ callsOf tops, ∃ t, resolveMql env ts = .ok t := by
  induction tops with
  | nil => intro _ _ _ ts h; cases h
  | cons t tops ih =>
    intro conv out h ts hts
    change (convertTop env sql conv t).bind (fun conv => convertAll env sql conv tops) = .ok out at h
    cases hc : convertTop env sql conv t with
    | error e => rw [hc] at h; cases h
    | ok conv' =>
      rw [hc] at h
      unfold callsOf at hts
      rw [List.filterMap_cons] at hts
      have later := ih conv' out h ts
      have here : ∀ c : MqlCall, upper c.name = "MQL" → (∃ r, (parseAndResolve env sql c).bind r = .ok conv') → ∃ t, resolveMql env c.args = .ok t := by
        rintro c hm ⟨r, hr⟩
        unfold parseAndResolve at hr
        rw [if_pos hm] at hr
        cases hq : resolveMql env c.args with
        | error e => rw [hq] at hr; cases hr
        | ok t => exact ⟨t, rfl⟩
      cases t with
      | other s => exact later hts
      | call c =>
        by_cases hm : upper c.name = "MQL"
        · simp only [if_pos hm, List.mem_cons] at hts
          rcases hts with rfl | hts
          · exact here c hm ⟨_, hc⟩
          · exact later hts
        · simp only [if_neg hm] at hts
          exact later hts
      | ident s hd =>
        cases hd with
        | group => exact later hts
        | leaf => exact later hts
        | call c =>
          by_cases hm : upper s ≠ "MQL" ∧ containsSub "MQL(".toList (upper s).toList = true ∧ upper c.name = "MQL"
          · simp only [if_pos hm, List.mem_cons] at hts
            rcases hts with rfl | hts
            · refine here c hm.2.2 ⟨fun q => .ok (putIn conv c.text q), ?_⟩
              simp only [convertTop] at hc
              rw [if_neg hm.1, if_pos hm.2.1] at hc
              exact hc
            · exact later hts
          · simp only [if_neg hm] at hts
            exact later hts

/-- What is left of the project when every call is answered. -/
theorem askCalls_left (env : ApiEnv P) (cs : List Conn) (kw : Kw) (l : List (List MqlTok)) : ∀ p : Loaded P,
    (∀ ts ∈ l, ∃ t, resolveMql ⟨env.int, fun q => (askMql env p cs kw q).2⟩ ts = .ok t) →
    (l = [] → askCalls env p cs kw l = p) ∧
    ∀ pre ts, l = pre ++ [ts] → ∃ m n, readMql ⟨env.int, fun _ => .ok ""⟩ ts = .ok m ∧ env.modelConn p.content p.user (questOf m) kw = .ok n ∧
      askCalls env p cs kw l = { p with schema := schemaIn (findConn cs n) } := by
  induction l with
  | nil => intro p _; exact ⟨fun _ => rfl, fun pre ts h => by simp at h⟩
  | cons ts l ih =>
    intro p h
    refine ⟨fun h => (by cases h), ?_⟩
    obtain ⟨t, ht⟩ := h ts List.mem_cons_self
    change (readMql _ ts).bind (fun q => (askMql env p cs kw q).2) = .ok t at ht
    rw [readMql_int _ _ (fun _ => .ok "")] at ht
    cases hm : readMql ⟨env.int, fun _ => .ok ""⟩ ts with
    | error e => rw [hm] at ht; cases ht
    | ok m =>
      rw [hm] at ht
      change (askMql env p cs kw m).2 = .ok t at ht
      have hstep : askCalls env p cs kw (ts :: l) = askCalls env (askMql env p cs kw m).1 cs kw l := by
        show (match readMql ⟨env.int, fun _ => .ok ""⟩ ts with
          | .error _ => p
          | .ok q => match askMql env p cs kw q with
            | (p, .error _) => p
            | (p, .ok _) => askCalls env p cs kw l) = _
        rw [hm]
        simp only
        cases hx : askMql env p cs kw m with
        | mk p' r =>
          rw [hx] at ht
          cases r with
          | error e => cases ht
          | ok x => rfl
      have hleft : ∃ n, env.modelConn p.content p.user (questOf m) kw = .ok n ∧
          (askMql env p cs kw m).1 = { p with schema := schemaIn (findConn cs n) } := by
        unfold askMql at ht ⊢
        cases hw : callWith mqlNames kw with
        | error e => rw [hw] at ht; cases ht
        | ok kw' =>
          obtain ⟨rfl, _⟩ := callWith_ok hw
          rw [hw] at ht
          simp only at ht ⊢
          cases hr : (ask env p cs (questOf m) kw').2 with
          | error e => rw [hr] at ht; cases ht
          | ok r =>
            obtain ⟨n, _, h1, _, h3, _⟩ := ask_ok hr
            exact ⟨n, h1, h3⟩
      obtain ⟨n, hn, hp⟩ := hleft
      have hsame : SameLoaded (askMql env p cs kw m).1 p := askMql_keeps env p cs kw m
      have hrec := ih (askMql env p cs kw m).1 (by
        intro u hu
        have := h u (List.mem_cons_of_mem _ hu)
        have e : (fun q => (askMql env (askMql env p cs kw m).1 cs kw q).2) = fun q => (askMql env p cs kw q).2 := by
          funext q; exact askMql_schema env hsame cs kw q
        rw [e]
        exact this)
      intro pre us hus
      rw [hstep]
      cases l with
      | nil =>
        cases pre with
        | nil =>
          cases hus
          exact ⟨m, n, hm, hn, by rw [hrec.1 rfl, hp]⟩
        | cons x pre => simp at hus
      | cons y l =>
        cases pre with
        | nil => simp at hus
        | cons x pre =>
          obtain ⟨m', n', h1, h2, h3⟩ := hrec.2 pre us (List.cons.inj hus).2
          rw [hp] at h2 h3
          refine ⟨m', n', h1, h2, ?_⟩
          rw [hp, h3]

/-- C67. **What SQL with MQL in it leaves behind**: without a statement of MQL nothing; otherwise the schema of the connection of the last one, with which
the tables of views are named from then on. -/
theorem C67_sql_left (env : ApiEnv P) (s : Session P) (a : Ask) (x : Reply) (hsql : a.sql.getD "" ≠ "")
    (ht : ∀ t ∈ env.tokens (a.sql.getD ""), Stays t ∨ ∃ c al, Has t c al) (h : (getSqlQuery env s a).2 = .ok x) :
    ((env.tokens (a.sql.getD "")).filterMap callIn = [] → (getSqlQuery env s a).1 = s) ∧
    ∀ pre c, (env.tokens (a.sql.getD "")).filterMap callIn = pre ++ [c] → ∃ p cs m q n conn, s.project = some p ∧
      loadConnections env.creds s.conns = .ok cs ∧ readMql ⟨env.int, fun _ => .ok ""⟩ c.args = .ok m ∧ AsksFor m q ∧
      env.modelConn p.content p.user q (kwMerge s.kw a.kw) = .ok n ∧ FirstCalled cs n conn ∧
      (getSqlQuery env s a).1 = { s with project := some { p with schema := schemaIn conn } } := by
  unfold getSqlQuery at h ⊢
  simp only at h ⊢
  cases hr : (route env s a).2 with
  | error e => rw [hr] at h; cases h
  | ok r =>
    unfold route at hr ⊢
    rw [if_pos hsql] at hr ⊢
    cases hu : inUse env s with
    | error e => rw [hu] at hr; cases hr
    | ok y =>
      obtain ⟨p, cs⟩ := y
      obtain ⟨hp, hc⟩ := inUse_ok hu
      rw [hu] at hr
      simp only at hr ⊢
      cases hw : callWith apiSqlNames (kwMerge s.kw a.kw) with
      | error e => rw [hw] at hr; cases hr
      | ok kw =>
        obtain ⟨rfl, _⟩ := callWith_ok hw
        rw [hw] at hr
        simp only at hr ⊢
        have hall : ∀ ts ∈ callsOf (env.tokens (a.sql.getD "")),
            ∃ t, resolveMql ⟨env.int, fun q => (askMql env p cs (kwMerge s.kw a.kw) q).2⟩ ts = .ok t := by
          cases hx : (askSql env p cs (kwMerge s.kw a.kw) (a.sql.getD "")).2 with
          | error e => rw [hx] at hr; cases hr
          | ok t =>
            change (convertAll _ _ _ _).bind withSemicolon = .ok t at hx
            cases hy : convertAll ⟨env.int, fun q => (askMql env p cs (kwMerge s.kw a.kw) q).2⟩ (a.sql.getD "") (a.sql.getD "")
                (env.tokens (a.sql.getD "")) with
            | error e => rw [hy] at hx; cases hx
            | ok out => exact convertAll_calls _ _ _ hy
        have key := askCalls_left env cs (kwMerge s.kw a.kw) _ p hall
        rw [callsOf_eq _ ht] at key
        refine ⟨?_, ?_⟩
        · intro h0
          have := key.1 (by rw [h0]; rfl)
          show { s with project := some (askCalls env p cs (kwMerge s.kw a.kw) (callsOf (env.tokens (a.sql.getD "")))) } = s
          rw [callsOf_eq _ ht, this, ← hp]
        · intro pre c hlast
          obtain ⟨m, n, h1, h2, h3⟩ := key.2 (pre.map (·.args)) c.args (by rw [hlast]; simp)
          refine ⟨p, cs, m, questOf m, n, findConn cs n, hp, hc, h1, questOf_asks m, h2, findConn_first cs n, ?_⟩
          show { s with project := some (askCalls env p cs (kwMerge s.kw a.kw) (callsOf (env.tokens (a.sql.getD "")))) } = _
          rw [callsOf_eq _ ht, h3]

/-- A resolver as before, for which SQL is what it is written as: one text has a statement of MQL, the others have none. -/
def apSqlEnv : ApiEnv String := { apEnv with tokens := fun s => if s = "SELECT * FROM MQL(a)" then [.other "SELECT * FROM ", .call mqlCall] else [.other s] }

/-- The hypotheses of the theorems about SQL can be met, with a statement of MQL and without one. -/
example : (∀ t ∈ apSqlEnv.tokens "SELECT * FROM MQL(a)", Stays t ∨ ∃ c al, Has t c al) ∧ (apSqlEnv.tokens "SELECT * FROM MQL(a)").filterMap callIn = [] ++ [mqlCall] ∧
    (∃ x, (getSqlQuery apSqlEnv apSession { sql := some "SELECT * FROM MQL(a)" }).2 = .ok x) ∧
    (getSqlQuery apSqlEnv apSession { sql := some "select 1" }).2 = .ok (.text "select 1;") ∧
    (getSqlQuery apSqlEnv apSession { sql := some "select 1" }).1 = apSession := by
  have hu : inUse apSqlEnv apSession = .ok ({ content := "orders", lookup := [("sf", .str "SNOWFLAKE")], user := none }, [cnConn]) := ap_inUse
  have one : ∀ sql out, sql ≠ "" →
      (askSql apSqlEnv { content := "orders", lookup := [("sf", .str "SNOWFLAKE")], user := none } [cnConn] [] sql).2 = .ok out →
      (getSqlQuery apSqlEnv apSession { sql := some sql }).2 = .ok (.text out) := by
    intro sql out hne h
    unfold getSqlQuery route
    rw [if_pos (show ({ sql := some sql } : Ask).sql.getD "" ≠ "" from hne), hu]
    show (Except.map _ (askSql apSqlEnv _ [cnConn] [] sql).2).bind _ = _
    rw [h]
    rfl
  have h1 : (getSqlQuery apSqlEnv apSession { sql := some "select 1" }).2 = .ok (.text "select 1;") := by
    refine one "select 1" "select 1;" (by decide) ?_
    decide +kernel
  refine ⟨?_, by decide +kernel, ⟨.text "SELECT * FROM (SELECT a FROM orders);", ?_⟩, h1, ?_⟩
  · intro t ht
    change t ∈ [Top.other "SELECT * FROM ", Top.call mqlCall] at ht
    simp only [List.mem_cons, List.not_mem_nil, or_false] at ht
    rcases ht with rfl | rfl
    · exact Or.inl ⟨rfl, by intro s h e; cases e⟩
    · exact Or.inr ⟨mqlCall, "", by decide +kernel, by unfold CallText; decide +kernel, Or.inl ⟨rfl, rfl⟩⟩
  · refine one "SELECT * FROM MQL(a)" _ (by decide) ?_
    decide +kernel
  · refine (C67_sql_left apSqlEnv apSession { sql := some "select 1" } _ (by decide) ?_ h1).1 (by decide +kernel)
    intro t ht
    change t ∈ [Top.other "select 1"] at ht
    simp only [List.mem_cons, List.not_mem_nil, or_false] at ht
    subst ht
    exact Or.inl ⟨rfl, by intro s h e; cases e⟩

end ML
