import Verif.Api.Spec

set_option autoImplicit false

namespace ML
open Spec

variable {P : Type}

theorem Spec.SameButSchema.refl (s : Session P) : SameButSchema s s := by
  refine ⟨rfl, rfl, rfl, rfl, rfl, rfl, ?_⟩
  cases h : s.project with
  | none => exact Or.inl ⟨rfl, rfl⟩
  | some p => exact Or.inr ⟨p, p, rfl, rfl, rfl, rfl, rfl⟩

theorem Spec.SameButSchema.symm {s t : Session P} (h : SameButSchema s t) : SameButSchema t s := by
  obtain ⟨a, b, c, d, e, f, g⟩ := h
  refine ⟨a.symm, b.symm, c.symm, d.symm, e.symm, f.symm, ?_⟩
  rcases g with ⟨x, y⟩ | ⟨p, q, x, y, u, v, w⟩
  · exact Or.inl ⟨y, x⟩
  · exact Or.inr ⟨q, p, y, x, u.symm, v.symm, w.symm⟩

theorem Spec.SameButSchema.trans {s t r : Session P} (h : SameButSchema s t) (h' : SameButSchema t r) : SameButSchema s r := by
  obtain ⟨a, b, c, d, e, f, g⟩ := h
  obtain ⟨a', b', c', d', e', f', g'⟩ := h'
  refine ⟨a.trans a', b.trans b', c.trans c', d.trans d', e.trans e', f.trans f', ?_⟩
  rcases g with ⟨x, y⟩ | ⟨p, q, x, y, u, v, w⟩
  · rcases g' with ⟨x', y'⟩ | ⟨p', q', x', y', u', v', w'⟩
    · exact Or.inl ⟨x, y'⟩
    · rw [y] at x'; cases x'
  · rcases g' with ⟨x', y'⟩ | ⟨p', q', x', y', u', v', w'⟩
    · rw [y] at x'; cases x'
    · rw [y] at x'; cases x'
      exact Or.inr ⟨p, q', x, y', u.trans u', v.trans v', w.trans w'⟩

/-- The same project but for the schema. -/
def SameLoaded (p q : Loaded P) : Prop := p.content = q.content ∧ p.lookup = q.lookup ∧ p.user = q.user

theorem SameLoaded.refl (p : Loaded P) : SameLoaded p p := ⟨rfl, rfl, rfl⟩

theorem SameLoaded.trans {p q r : Loaded P} (h : SameLoaded p q) (h' : SameLoaded q r) : SameLoaded p r :=
  ⟨h.1.trans h'.1, h.2.1.trans h'.2.1, h.2.2.trans h'.2.2⟩

theorem ask_schema (env : ApiEnv P) {p q : Loaded P} (h : SameLoaded p q) (cs : List Conn) (qu : Quest) (kw : Kw) :
    (ask env p cs qu kw).2 = (ask env q cs qu kw).2 := by
  obtain ⟨c, l, u, x⟩ := p
  obtain ⟨c', l', u', x'⟩ := q
  obtain ⟨h1, h2, h3⟩ := h
  simp only at h1 h2 h3
  subst h1; subst h2; subst h3
  unfold ask
  simp only
  cases env.modelConn c u qu kw with
  | error e => rfl
  | ok n =>
    simp only
    cases queryTypeOf (findConn cs n) kw with
    | error e => rfl
    | ok t => rfl

theorem ask_keeps (env : ApiEnv P) (p : Loaded P) (cs : List Conn) (qu : Quest) (kw : Kw) : SameLoaded (ask env p cs qu kw).1 p := by
  unfold ask
  cases env.modelConn p.content p.user qu kw with
  | error e => exact SameLoaded.refl p
  | ok n =>
    simp only
    cases queryTypeOf (findConn cs n) kw with
    | error e => exact SameLoaded.refl p
    | ok t => exact ⟨rfl, rfl, rfl⟩

/-- The SQL of a call of `MQL` does not depend on the schema that was there before. -/
theorem askMql_schema (env : ApiEnv P) {p q : Loaded P} (h : SameLoaded p q) (cs : List Conn) (kw : Kw) (m : MqlQuery) :
    (askMql env p cs kw m).2 = (askMql env q cs kw m).2 := by
  unfold askMql
  cases callWith mqlNames kw with
  | error e => rfl
  | ok kw => simp only [ask_schema env h]

theorem askMql_keeps (env : ApiEnv P) (p : Loaded P) (cs : List Conn) (kw : Kw) (m : MqlQuery) : SameLoaded (askMql env p cs kw m).1 p := by
  unfold askMql
  cases callWith mqlNames kw with
  | error e => exact SameLoaded.refl p
  | ok kw => exact ask_keeps env p cs _ kw

theorem askCalls_keeps (env : ApiEnv P) (cs : List Conn) (kw : Kw) (l : List (List MqlTok)) :
    ∀ p : Loaded P, SameLoaded (askCalls env p cs kw l) p := by
  induction l with
  | nil => intro p; exact SameLoaded.refl p
  | cons ts rest ih =>
    intro p
    unfold askCalls
    cases readMql ⟨env.int, fun _ => .ok ""⟩ ts with
    | error e => exact SameLoaded.refl p
    | ok m =>
      simp only
      have hk := askMql_keeps env p cs kw m
      cases hr : askMql env p cs kw m with
      | mk p' r =>
        rw [hr] at hk
        cases r with
        | error e => exact hk
        | ok x => exact (ih p').trans hk

theorem askSql_schema (env : ApiEnv P) {p q : Loaded P} (h : SameLoaded p q) (cs : List Conn) (kw : Kw) (sql : String) :
    (askSql env p cs kw sql).2 = (askSql env q cs kw sql).2 := by
  unfold askSql
  simp only
  have : (fun m => (askMql env p cs kw m).2) = fun m => (askMql env q cs kw m).2 := by
    funext m; exact askMql_schema env h cs kw m
  rw [this]

theorem askSql_keeps (env : ApiEnv P) (p : Loaded P) (cs : List Conn) (kw : Kw) (sql : String) : SameLoaded (askSql env p cs kw sql).1 p :=
  askCalls_keeps env cs kw _ p

theorem same_put {s : Session P} {p p' : Loaded P} (hs : s.project = some p) (h : SameLoaded p' p) :
    SameButSchema { s with project := some p' } s :=
  ⟨rfl, rfl, rfl, rfl, rfl, rfl, Or.inr ⟨p', p, rfl, hs, h.1, h.2.1, h.2.2⟩⟩

theorem inUse_ok {env : ApiEnv P} {s : Session P} {p : Loaded P} {cs : List Conn} (h : inUse env s = .ok (p, cs)) :
    s.project = some p ∧ loadConnections env.creds s.conns = .ok cs := by
  unfold inUse at h
  cases hp : s.project with
  | none => rw [hp] at h; cases h
  | some q =>
    rw [hp] at h
    simp only at h
    cases hc : loadConnections env.creds s.conns with
    | error e => rw [hc] at h; cases h
    | ok l => rw [hc] at h; cases h; exact ⟨rfl, rfl⟩

/-- What is in use in two sessions that differ in the schema only. -/
theorem inUse_same (env : ApiEnv P) {s t : Session P} (h : SameButSchema s t) :
    (∃ e, inUse env s = .error e ∧ inUse env t = .error e) ∨
    ∃ p q cs, inUse env s = .ok (p, cs) ∧ inUse env t = .ok (q, cs) ∧ SameLoaded p q := by
  obtain ⟨_, hc, _, _, _, _, hp⟩ := h
  unfold inUse
  rw [hc]
  rcases hp with ⟨x, y⟩ | ⟨p, q, x, y, u, v, w⟩
  · rw [x, y]; exact Or.inl ⟨_, rfl, rfl⟩
  · rw [x, y]
    simp only
    cases loadConnections env.creds t.conns with
    | error e => exact Or.inl ⟨e, rfl, rfl⟩
    | ok cs => exact Or.inr ⟨p, q, cs, rfl, rfl, u, v, w⟩

theorem route_keeps (env : ApiEnv P) (s : Session P) (a : Ask) : SameButSchema (route env s a).1 s := by
  have r := SameButSchema.refl s
  unfold route
  split
  · cases hu : inUse env s with
    | error e => exact r
    | ok x =>
      obtain ⟨p, cs⟩ := x
      simp only
      cases callWith apiSqlNames (kwMerge s.kw a.kw) with
      | error e => exact r
      | ok kw => exact same_put (inUse_ok hu).1 (askSql_keeps env p cs kw _)
  · split
    · cases hu : inUse env s with
      | error e => exact r
      | ok x =>
        obtain ⟨p, cs⟩ := x
        simp only
        cases callWith apiFieldNames (kwMerge s.kw a.kw) with
        | error e => exact r
        | ok kw => exact same_put (inUse_ok hu).1 (ask_keeps env p cs _ kw)
    · cases yamlLen a.merged with
      | error e => exact r
      | ok n =>
        cases n with
        | zero => exact r
        | succ n =>
          simp only
          cases hu : inUse env s with
          | error e => exact r
          | ok x =>
            obtain ⟨p, cs⟩ := x
            simp only
            cases callWith apiMergedNames (kwMerge s.kw (a.kw.filter (fun x => x.1 ≠ "merged_result"))) with
            | error e => exact r
            | ok kw => exact same_put (inUse_ok hu).1 ⟨rfl, rfl, rfl⟩

theorem route_schema (env : ApiEnv P) {s t : Session P} (h : SameButSchema s t) (a : Ask) : (route env s a).2 = (route env t a).2 := by
  have hk : s.kw = t.kw := h.2.2.1
  unfold route
  rw [hk]
  split
  · rcases inUse_same env h with ⟨e, x, y⟩ | ⟨p, q, cs, x, y, z⟩
    · rw [x, y]
    · rw [x, y]
      simp only
      cases callWith apiSqlNames (kwMerge t.kw a.kw) with
      | error e => rfl
      | ok kw => simp only [askSql_schema env z]
  · split
    · rcases inUse_same env h with ⟨e, x, y⟩ | ⟨p, q, cs, x, y, z⟩
      · rw [x, y]
      · rw [x, y]
        simp only
        cases callWith apiFieldNames (kwMerge t.kw a.kw) with
        | error e => rfl
        | ok kw => simp only [ask_schema env z]
    · cases yamlLen a.merged with
      | error e => rfl
      | ok n =>
        cases n with
        | zero => rfl
        | succ n =>
          simp only
          rcases inUse_same env h with ⟨e, x, y⟩ | ⟨p, q, cs, x, y, z⟩
          · rw [x, y]
          · rw [x, y]
            simp only
            cases callWith apiMergedNames (kwMerge t.kw (a.kw.filter (fun x => x.1 ≠ "merged_result"))) with
            | error e => rfl
            | ok kw => simp only [z.1, z.2.1, z.2.2]

theorem getSqlQuery_keeps (env : ApiEnv P) (s : Session P) (a : Ask) : SameButSchema (getSqlQuery env s a).1 s := route_keeps env s a

theorem getSqlQuery_schema (env : ApiEnv P) {s t : Session P} (h : SameButSchema s t) (a : Ask) :
    (getSqlQuery env s a).2 = (getSqlQuery env t a).2 := by
  unfold getSqlQuery
  simp only [route_schema env h a]

theorem runAsk_keeps (env : ApiEnv P) (s : Session P) (a : Ask) : SameButSchema (runAsk env s a).1 s := by
  unfold runAsk
  cases callWith queryNames (kwMerge s.kw a.kw) with
  | error e => exact SameButSchema.refl s
  | ok kw => exact getSqlQuery_keeps env s _

theorem runAsk_schema (env : ApiEnv P) {s t : Session P} (h : SameButSchema s t) (a : Ask) : (runAsk env s a).2 = (runAsk env t a).2 := by
  have hk : s.kw = t.kw := h.2.2.1
  unfold runAsk
  rw [hk]
  cases callWith queryNames (kwMerge t.kw a.kw) with
  | error e => rfl
  | ok kw => simp only [getSqlQuery_schema env h]

/-- A call on two sessions that differ in the schema only: it returns the same, unless it tells a table name, and they still differ in
the schema only. -/
theorem run_same (env : ApiEnv P) {s t : Session P} (h : SameButSchema s t) (op : ApiOp P) :
    SameButSchema (op.run env s).1 (op.run env t).1 ∧ ((∀ v, op ≠ .tableName v) → (op.run env s).2 = (op.run env t).2) := by
  obtain ⟨a, b, c, d, e, f, g⟩ := id h
  cases op with
  | setUser u =>
    unfold ApiOp.run
    rcases g with ⟨x, y⟩ | ⟨p, q, x, y, w⟩
    · rw [x, y]; exact ⟨⟨a, b, c, rfl, e, f, Or.inl ⟨rfl, rfl⟩⟩, fun _ => rfl⟩
    · rw [x, y]; exact ⟨⟨a, b, c, rfl, e, f, Or.inr ⟨_, _, rfl, rfl, w.1, w.2.1, rfl⟩⟩, fun _ => rfl⟩
  | load fetched =>
    unfold ApiOp.run loadInto
    rw [a, b, d, e]
    cases t.location with
    | some l =>
      simp only
      cases loadConnections env.creds t.conns with
      | error e' => exact ⟨h, fun _ => rfl⟩
      | ok cs =>
        cases fetched with
        | error e' => exact ⟨h, fun _ => rfl⟩
        | ok x => exact ⟨⟨rfl, rfl, c, rfl, rfl, rfl, Or.inr ⟨_, _, rfl, rfl, rfl, rfl, rfl⟩⟩, fun _ => rfl⟩
    | none =>
      simp only
      split
      · exact ⟨h, fun _ => rfl⟩
      · exact ⟨h, fun _ => rfl⟩
  | addConnections cs => exact ⟨⟨a, by show s.conns ++ cs = t.conns ++ cs; rw [b], c, d, e, f, g⟩, fun _ => rfl⟩
  | listConnections => unfold ApiOp.run; rw [b]; exact ⟨h, fun _ => rfl⟩
  | getConnection n => unfold ApiOp.run; rw [b]; exact ⟨h, fun _ => rfl⟩
  | branchOptions =>
    unfold ApiOp.run
    rw [f]
    cases t.branches with
    | none => exact ⟨h, fun _ => rfl⟩
    | some bs => exact ⟨h, fun _ => rfl⟩
  | getSql q =>
    refine ⟨(getSqlQuery_keeps env s q).trans (h.trans (getSqlQuery_keeps env t q).symm), fun _ => ?_⟩
    show ((getSqlQuery env s q).2.map _) = ((getSqlQuery env t q).2.map _)
    rw [getSqlQuery_schema env h]
  | query q =>
    refine ⟨(runAsk_keeps env s q).trans (h.trans (runAsk_keeps env t q).symm), fun _ => ?_⟩
    show ((runAsk env s q).2.map _) = ((runAsk env t q).2.map _)
    rw [runAsk_schema env h]
  | tableName v =>
    refine ⟨?_, fun hv => absurd rfl (hv v)⟩
    unfold ApiOp.run
    rcases g with ⟨x, y⟩ | ⟨p, q, x, y, w⟩
    · rw [x, y]; exact h
    · rw [x, y]; exact h

/-- Asking leaves the session as it was, but for the schema. -/
theorem run_ask_keeps (env : ApiEnv P) (s : Session P) (op : ApiOp P) (h : isAsk op = true) : SameButSchema (op.run env s).1 s := by
  cases op with
  | getSql a => exact getSqlQuery_keeps env s a
  | query a => exact runAsk_keeps env s a
  | _ => cases h

theorem runAll_same (env : ApiEnv P) (ops : List (ApiOp P)) : ∀ {s t : Session P}, SameButSchema s t →
    SameButSchema (runAll env s ops) (runAll env t (ops.filter fun o => !isAsk o)) := by
  induction ops with
  | nil => intro s t h; exact h
  | cons op ops ih =>
    intro s t h
    unfold runAll
    cases hq : isAsk op with
    | true =>
      rw [List.filter_cons_of_neg (by simp [hq])]
      have := ih ((run_ask_keeps env s op hq).trans h)
      cases hf : ops.filter fun o => !isAsk o with
      | nil => rw [hf] at this; exact this
      | cons x l => rw [hf] at this; exact this
    | false =>
      rw [List.filter_cons_of_pos (by simp [hq])]
      exact ih (run_same env h op).1

theorem runAll_append (env : ApiEnv P) (a b : List (ApiOp P)) : ∀ s : Session P, runAll env s (a ++ b) = runAll env (runAll env s a) b := by
  induction a with
  | nil => intro s; rfl
  | cons op a ih => intro s; exact ih _

theorem kwMerge_get (a b : Kw) (hb : Dict b) (k : String) : dictGet (kwMerge a b) k = optionOf a b k := by
  unfold kwMerge optionOf
  have : ∀ (b : Kw) (a : Kw), Dict b → dictGet (b.foldl (fun d p => dictSet d p.1 p.2) a) k =
      match dictGet b k with | some v => some v | none => dictGet a k := by
    intro b
    induction b with
    | nil => intro a _; rfl
    | cons x b ih =>
      intro a hb
      obtain ⟨k', v⟩ := x
      unfold Dict at hb
      rw [List.map_cons, List.nodup_cons] at hb
      rw [List.foldl_cons, ih _ hb.2]
      simp only [dictGet]
      by_cases hk : k' = k
      · rw [if_pos hk]
        have : dictGet b k = none := by
          cases hg : dictGet b k with
          | none => rfl
          | some w => exact absurd (List.mem_map.mpr ⟨(k, w), dictGet_mem hg, rfl⟩) (hk ▸ hb.1)
        rw [this, dictGet_set, if_pos hk]
      · rw [if_neg hk]
        cases dictGet b k with
        | some w => rfl
        | none => simp only; rw [dictGet_set, if_neg hk]
  exact this b a hb

theorem callWith_ok {names : List String} {kw kw' : Kw} (h : callWith names kw = .ok kw') : kw' = kw ∧ ∀ p ∈ kw, p.1 ∉ names := by
  unfold callWith at h
  split at h
  · cases h
  · rename_i hn
    cases h
    refine ⟨rfl, fun p hp hm => hn ?_⟩
    rw [List.any_eq_true]
    exact ⟨p, hp, by simpa using hm⟩

end ML
