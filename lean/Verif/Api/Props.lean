import Verif.Api.Lemmas
import Verif.Connect.PropsExec
import Verif.Connect.PropsHand

/-!
# C67: a session answers for the user, the project and the connections of the moment
-/

set_option autoImplicit false

namespace ML
open Spec

variable {P : Type}

/-- What a history leaves of the user, the connections, the location and the options: one call. -/
theorem run_fields (env : ApiEnv P) (s : Session P) (op : ApiOp P) :
    (op.run env s).1.user = lastUser s.user [op] ∧ (op.run env s).1.conns = s.conns ++ added [op] ∧
    (op.run env s).1.location = s.location ∧ (op.run env s).1.kw = s.kw ∧ (op.run env s).1.passed = s.passed ∧
    ((∀ p, s.project = some p → p.user = s.user) → ∀ p, (op.run env s).1.project = some p → p.user = (op.run env s).1.user) := by
  have quiet : ∀ t : Session P, SameButSchema t s → t.user = s.user ∧ t.conns = s.conns ∧ t.location = s.location ∧ t.kw = s.kw ∧
      t.passed = s.passed ∧ ((∀ p, s.project = some p → p.user = s.user) → ∀ p, t.project = some p → p.user = t.user) := by
    rintro t ⟨a, b, c, d, e, f, g⟩
    refine ⟨d, b, a, c, e, fun h p hp => ?_⟩
    rcases g with ⟨x, _⟩ | ⟨p', q, x, y, _, _, w⟩
    · rw [x] at hp; cases hp
    · rw [x] at hp; cases hp
      rw [w, d]; exact h q y
  have same : ∀ t : Session P, SameButSchema t s → op.run env s = (t, (op.run env s).2) → lastUser s.user [op] = s.user →
      (added [op] = []) →
      (op.run env s).1.user = lastUser s.user [op] ∧ (op.run env s).1.conns = s.conns ++ added [op] ∧
      (op.run env s).1.location = s.location ∧ (op.run env s).1.kw = s.kw ∧ (op.run env s).1.passed = s.passed ∧
      ((∀ p, s.project = some p → p.user = s.user) → ∀ p, (op.run env s).1.project = some p → p.user = (op.run env s).1.user) := by
    intro t ht e hu ha
    have e1 : (op.run env s).1 = t := by rw [e]
    rw [e1, hu, ha, List.append_nil]
    exact quiet t ht
  have r := SameButSchema.refl s
  cases op with
  | setUser u =>
    unfold ApiOp.run
    cases hp : s.project with
    | none => exact ⟨rfl, (List.append_nil _).symm, rfl, rfl, rfl, fun _ p h => by cases h⟩
    | some p => exact ⟨rfl, (List.append_nil _).symm, rfl, rfl, rfl, fun _ q h => by cases h; rfl⟩
  | addConnections cs => exact ⟨rfl, by simp [ApiOp.run, added, connsNamed], rfl, rfl, rfl, fun h => h⟩
  | load fetched =>
    unfold ApiOp.run loadInto
    cases hl : s.location with
    | none =>
      simp only
      split <;> exact ⟨rfl, (List.append_nil _).symm, hl, rfl, rfl, fun h => h⟩
    | some l =>
      simp only
      cases loadConnections env.creds s.conns with
      | error e => exact ⟨rfl, (List.append_nil _).symm, hl, rfl, rfl, fun h => h⟩
      | ok cs =>
        cases fetched with
        | error e => exact ⟨rfl, (List.append_nil _).symm, hl, rfl, rfl, fun h => h⟩
        | ok x => exact ⟨rfl, (List.append_nil _).symm, rfl, rfl, rfl, fun _ p h => by cases h; rfl⟩
  | listConnections => exact same s r rfl rfl rfl
  | getConnection n => exact same s r rfl rfl rfl
  | branchOptions =>
    refine same s r ?_ rfl rfl
    unfold ApiOp.run
    cases s.branches <;> rfl
  | getSql a => exact same _ (getSqlQuery_keeps env s a) rfl rfl rfl
  | query a => exact same _ (runAsk_keeps env s a) rfl rfl rfl
  | tableName v =>
    refine same s r ?_ rfl rfl
    unfold ApiOp.run
    cases s.project <;> rfl

theorem lastUser_cons (u : Option User) (op : ApiOp P) (ops : List (ApiOp P)) :
    lastUser u (op :: ops) = lastUser (lastUser u [op]) ops := by
  unfold lastUser
  cases h : userNamed op with
  | none => simp [h]
  | some v =>
    cases hl : ops.filterMap userNamed with
    | nil => simp [h, hl]
    | cons x l => simp [h, hl, List.getLast?_cons]

theorem added_cons (op : ApiOp P) (ops : List (ApiOp P)) : added (op :: ops) = added [op] ++ added ops := by
  simp [added]

/-- C67. **The user of the moment.** After any history of calls the session has the user who was named last, whatever was loaded, asked or
refused since, and so has the project it answers from. -/
theorem C67_user (env : ApiEnv P) (location : Option String) (project : Option (Loaded P)) (conns : List RawConn) (user : Option User)
    (kw : Kw) (ops : List (ApiOp P)) :
    let s := runAll env (newSession location project conns user kw) ops
    s.user = lastUser user ops ∧ ∀ p, s.project = some p → p.user = lastUser user ops := by
  have key : ∀ (ops : List (ApiOp P)) (s : Session P), (∀ p, s.project = some p → p.user = s.user) →
      (runAll env s ops).user = lastUser s.user ops ∧ ∀ p, (runAll env s ops).project = some p → p.user = lastUser s.user ops := by
    intro ops
    induction ops with
    | nil => intro s h; exact ⟨rfl, h⟩
    | cons op ops ih =>
      intro s h
      obtain ⟨h1, _, _, _, _, h6⟩ := run_fields env s op
      have := ih (op.run env s).1 (h6 h)
      rw [h1] at this
      rw [lastUser_cons]
      exact this
  refine key ops _ ?_
  intro p hp
  cases project with
  | none => cases hp
  | some q => cases hp; rfl

/-- C67. **The connections of the moment** are those of the constructor and those that were added, in order; `list_connections` makes them
all, and `get_connection` gives the first with the name. -/
theorem C67_connections (env : ApiEnv P) (location : Option String) (project : Option (Loaded P)) (conns : List RawConn)
    (user : Option User) (kw : Kw) (ops : List (ApiOp P)) (cs : List Conn)
    (h : loadConnections env.creds (conns ++ added ops) = .ok cs) :
    let s := runAll env (newSession location project conns user kw) ops
    s.conns = conns ++ added ops ∧ (ApiOp.listConnections.run env s).2 = .ok (.conns cs) ∧
    ∀ n, ∃ r, ((ApiOp.getConnection n).run env s).2 = .ok (.conn r) ∧
      (r = none → ∀ c ∈ cs, dictGet c.attrs "name" ≠ some (.str n)) ∧
      (∀ c, r = some c → dictGet c.attrs "name" = some (.str n) ∧
        ∃ pre post, cs = pre ++ c :: post ∧ ∀ x ∈ pre, dictGet x.attrs "name" ≠ some (.str n)) := by
  have key : ∀ (ops : List (ApiOp P)) (s : Session P), (runAll env s ops).conns = s.conns ++ added ops := by
    intro ops
    induction ops with
    | nil => intro s; exact (List.append_nil _).symm
    | cons op ops ih =>
      intro s
      obtain ⟨_, h2, _⟩ := run_fields env s op
      rw [added_cons, ← List.append_assoc, ← h2]
      exact ih _
  have e := key ops (newSession location project conns user kw)
  have called : ∀ (c : Conn) (n : String), c.called (some n) = true ↔ dictGet c.attrs "name" = some (.str n) := by
    intro c n
    unfold Conn.called
    cases hm : dictGet c.attrs "name" with
    | none => simp
    | some v => cases v <;> simp
  intro s
  have e' : s.conns = conns ++ added ops := e
  refine ⟨e', ?_, fun n => ⟨findConn cs (some n), ?_, ?_, ?_⟩⟩
  · show (loadConnections env.creds s.conns).map _ = _
    rw [e', h]; rfl
  · show (loadConnections env.creds s.conns).map _ = _
    rw [e', h]; rfl
  · intro hr c hc hn
    exact absurd ((called c n).mpr hn) (by simpa using List.find?_eq_none.mp hr c hc)
  · intro c hr
    obtain ⟨h1, pre, post, h2, h3⟩ := List.find?_eq_some_iff_append.mp hr
    exact ⟨(called c n).mp h1, pre, post, h2, fun x hx hn => absurd ((called x n).mpr hn) (by simpa using h3 x hx)⟩

/-- C67. **The project of the moment** is the one that was read last: no other call changes it, and a load that fails leaves the session as it
was. The project that was passed to the constructor is the one of the session until a location is read. -/
theorem C67_project (env : ApiEnv P) (s : Session P) :
    (∀ ops, (∀ op ∈ ops, isRead op = false) →
      (runAll env s ops).project.map (·.content) = s.project.map (·.content) ∧
      (runAll env s ops).project.map (·.lookup) = s.project.map (·.lookup)) ∧
    (∀ pre post content branches cs l, s.location = some l → (∀ op ∈ post, isRead op = false) →
      loadConnections env.creds (runAll env s pre).conns = .ok cs →
      (runAll env s (pre ++ .load (.ok (content, branches)) :: post)).project.map (·.content) = some content) ∧
    (∀ fetched e, ((ApiOp.load fetched).run env s).2 = .error e → ((ApiOp.load fetched).run env s).1 = s) := by
  have one : ∀ (s : Session P) (op : ApiOp P), isRead op = false →
      (op.run env s).1.project.map (·.content) = s.project.map (·.content) ∧
      (op.run env s).1.project.map (·.lookup) = s.project.map (·.lookup) := by
    intro s op h
    have quiet : ∀ t : Session P, SameButSchema t s → t.project.map (·.content) = s.project.map (·.content) ∧
        t.project.map (·.lookup) = s.project.map (·.lookup) := by
      rintro t ⟨_, _, _, _, _, _, g⟩
      rcases g with ⟨x, y⟩ | ⟨p, q, x, y, u, v, w⟩
      · rw [x, y]; exact ⟨rfl, rfl⟩
      · rw [x, y]; exact ⟨congrArg some u, congrArg some v⟩
    cases op with
    | setUser u =>
      unfold ApiOp.run
      cases hp : s.project with
      | none => exact ⟨rfl, rfl⟩
      | some p => exact ⟨rfl, rfl⟩
    | load fetched =>
      unfold ApiOp.run loadInto
      cases s.location with
      | none => simp only; split <;> exact ⟨rfl, rfl⟩
      | some l =>
        simp only
        cases loadConnections env.creds s.conns with
        | error e => exact ⟨rfl, rfl⟩
        | ok cs =>
          cases fetched with
          | error e => exact ⟨rfl, rfl⟩
          | ok x => cases h
    | addConnections cs => exact ⟨rfl, rfl⟩
    | listConnections => exact ⟨rfl, rfl⟩
    | getConnection n => exact ⟨rfl, rfl⟩
    | branchOptions => unfold ApiOp.run; cases s.branches <;> exact ⟨rfl, rfl⟩
    | getSql a => exact quiet _ (getSqlQuery_keeps env s a)
    | query a => exact quiet _ (runAsk_keeps env s a)
    | tableName v =>
      unfold ApiOp.run
      cases hp : s.project with
      | none => simp only; rw [hp]; exact ⟨rfl, rfl⟩
      | some p => simp only; rw [hp]; exact ⟨rfl, rfl⟩
  have all : ∀ (ops : List (ApiOp P)) (s : Session P), (∀ op ∈ ops, isRead op = false) →
      (runAll env s ops).project.map (·.content) = s.project.map (·.content) ∧
      (runAll env s ops).project.map (·.lookup) = s.project.map (·.lookup) := by
    intro ops
    induction ops with
    | nil => intro s _; exact ⟨rfl, rfl⟩
    | cons op ops ih =>
      intro s h
      obtain ⟨h1, h2⟩ := ih (op.run env s).1 (fun o ho => h o (List.mem_cons_of_mem _ ho))
      obtain ⟨h3, h4⟩ := one s op (h op (by simp))
      exact ⟨h1.trans h3, h2.trans h4⟩
  refine ⟨fun ops h => all ops s h, ?_, ?_⟩
  · intro pre post content branches cs l hl hpost hc
    have hloc : ∀ (ops : List (ApiOp P)) (s : Session P), (runAll env s ops).location = s.location := by
      intro ops
      induction ops with
      | nil => intro s; rfl
      | cons op ops ih => intro s; exact (ih _).trans (run_fields env s op).2.2.1
    rw [runAll_append]
    show Option.map _ (runAll env ((ApiOp.load (.ok (content, branches))).run env (runAll env s pre)).1 post).project = _
    rw [(all post _ hpost).1]
    show Option.map _ (loadInto env (runAll env s pre) (.ok (content, branches))).1.project = _
    unfold loadInto
    rw [hloc pre s, hl, hc]
    rfl
  · intro fetched e h
    change (loadInto env s fetched).2 = _ at h
    show (loadInto env s fetched).1 = s
    unfold loadInto at h ⊢
    cases hl : s.location with
    | none =>
      rw [hl] at h
      simp only at h ⊢
      by_cases hp : s.passed = true
      · rw [if_pos hp]
      · rw [if_neg hp]
    | some l =>
      rw [hl] at h
      simp only at h ⊢
      cases hc : loadConnections env.creds s.conns with
      | error e' => rfl
      | ok cs =>
        rw [hc] at h
        simp only at h
        cases fetched with
        | error e' => rfl
        | ok x => cases h

/-- C67. **No call is answered differently because of the queries before it.** Whatever history a session has, a call returns what it returns
when all the queries of that history are left out. The table name of a view, which is told with the schema of the last query
(`C67_table_name`), is the one exception. -/
theorem C67_history (env : ApiEnv P) (s : Session P) (ops : List (ApiOp P)) (op : ApiOp P) (h : ∀ v, op ≠ .tableName v) :
    (op.run env (runAll env s ops)).2 = (op.run env (runAll env s (ops.filter fun o => !isAsk o))).2 :=
  (run_same env (runAll_same env ops (SameButSchema.refl s)) op).2 h

/-- C67. Before a project is there, everything that needs it raises QueryError, `set_user` too, which keeps the user for later; loading
without a location raises AttributeError unless a project was passed. -/
theorem C67_not_loaded (env : ApiEnv P) (conns : List RawConn) (user : Option User) (kw : Kw) (location : Option String) :
    let s := newSession (P := P) location none conns user kw
    (∀ u, ((ApiOp.setUser u).run env s).2 = .error .query ∧ ((ApiOp.setUser u).run env s).1.user = u) ∧
    (ApiOp.branchOptions.run env s).2 = .error .query ∧ (∀ v, ((ApiOp.tableName v).run env s).2 = .error .query) ∧
    (∀ a : Ask, a.sql.getD "" ≠ "" ∨ a.metrics ≠ [] ∨ a.dimensions ≠ [] → ((ApiOp.getSql a).run env s).2 = .error .query) ∧
    (location = none → ∀ f, ((ApiOp.load f).run env s).2 = .error .attributeError) := by
  refine ⟨fun u => ⟨rfl, rfl⟩, rfl, fun v => rfl, ?_, ?_⟩
  · intro a ha
    have : (route env (newSession (P := P) location none conns user kw) a).2 = .error .query := by
      unfold route
      by_cases h1 : a.sql.getD "" ≠ ""
      · rw [if_pos h1]; rfl
      · rw [if_neg h1]
        rcases ha with ha | ha
        · exact absurd ha h1
        · rw [if_pos ha]; rfl
    show ((route env _ a).2.bind _).map _ = _
    rw [this]; rfl
  · rintro rfl f; rfl

end ML
