import Verif.Api.PropsRun

/-!
# C67: a session that meets the hypotheses
-/

set_option autoImplicit false

namespace ML
open Spec

/-- A resolver that answers every question for the connection `sf`. -/
def apEnv : ApiEnv String where
  creds := cnEnv
  render := fun _ => ""
  modelConn := fun _ _ q _ => if q.metrics = ["elsewhere"] then .ok none else .ok (some "sf")
  answer := fun p _ u _ _ q _ => .ok ("SELECT " ++ String.intercalate ", " (q.metrics ++ q.dimensions) ++ " FROM " ++ p ++
    (if u.isSome then " WHERE mine" else ""), "SINGLE")
  mergedAnswer := fun _ _ _ _ _ _ => (.null, .ok "SELECT 1")
  tokens := fun _ => []
  int := fun _ => none
  pretty := fun s => s
  tableName := fun _ _ schema v => .ok (if schema.truthy then "main." ++ v else v)

theorem ap_conns : loadConnections apEnv.creds [.dict cnSnowflake] = .ok [cnConn] := by
  have h1 : classLookup (upper "snowflake") = some .snowflake := by decide +kernel
  show loadConnections cnEnv [.dict cnSnowflake] = .ok [cnConn]
  simp only [loadConnections, loadOne, cnSnowflake, dictGet]
  simp only [if_true]
  rw [h1]
  rfl

/-- The session after a load. -/
def apSession : Session String where
  location := some "here"
  conns := [.dict cnSnowflake]
  kw := []
  user := none
  project := some { content := "orders", lookup := [("sf", .str "SNOWFLAKE")], user := none }
  passed := false
  branches := some ["main"]

/-- A question. -/
def apAsk : Ask := { metrics := ["total"], dimensions := ["region"], kw := [("return_connection", .bool true)] }

/-- The question without options. -/
def apPlain : Ask := { metrics := ["total"], dimensions := ["region"] }

theorem ap_loaded : (ApiOp.load (.ok ("orders", ["main"]))).run apEnv (newSession (some "here") none [.dict cnSnowflake] none []) =
    (apSession, .ok .done) := by
  unfold ApiOp.run loadInto newSession
  simp only
  rw [ap_conns]
  rfl

theorem ap_find : findConn [cnConn] (some "sf") = some cnConn := by rfl

theorem ap_inUse : inUse apEnv apSession =
    .ok ({ content := "orders", lookup := [("sf", .str "SNOWFLAKE")], user := none }, [cnConn]) := by
  unfold inUse
  simp only [apSession]
  rw [ap_conns]
  rfl

theorem ap_asked : (getSqlQuery apEnv apSession apAsk).2 = .ok (.withConn "SELECT total, region FROM orders" (some cnConn)) := by
  unfold getSqlQuery route
  rw [if_neg (by decide), if_pos (Or.inl (by decide)), ap_inUse]
  rfl

example : apAsk.sql.getD "" = "" ∧ (apAsk.metrics ≠ [] ∨ apAsk.dimensions ≠ []) ∧ Dict apAsk.kw :=
  ⟨rfl, Or.inl (by decide), by unfold Dict; decide⟩

/-- `query` runs it. -/
example : ∃ x, (runAsk apEnv apSession apPlain).2 = .ok x ∧ x.conn = cnConn := by
  have h : (getSqlQuery apEnv apSession (queryAsk apPlain [])).2 =
      .ok (.withConn "SELECT total, region FROM orders" (some cnConn)) := by
    unfold getSqlQuery route
    rw [if_neg (by decide), if_pos (Or.inl (by decide)), ap_inUse]
    rfl
  obtain ⟨x, hx, _⟩ := C66_use apEnv.render "SELECT total, region FROM orders" cnConn [] (some "wh") none (some "main") rfl rfl rfl rfl
    (by simp) (by simp) (by simp)
  refine ⟨x, ?_, (C66_run _ _ _ _ x hx).1⟩
  unfold runAsk
  rw [show callWith queryNames (kwMerge apSession.kw apPlain.kw) = .ok [] from rfl]
  simp only
  rw [h]
  exact hx

/-- Merged queries can be asked for, and are not run. -/
example : (getSqlQuery apEnv apSession { merged := .list [.dict []] }).2 = .ok (.text "SELECT 1") ∧
    (runAsk apEnv apSession { kw := [("merged_queries", .list [.dict []])] }).2 = .error .attributeError := by
  have h : ∀ kw, callWith apiMergedNames (kwMerge apSession.kw (kw.filter (fun x => x.1 ≠ "merged_result"))) =
      .ok (kwMerge apSession.kw (kw.filter (fun x => x.1 ≠ "merged_result"))) →
      (getSqlQuery apEnv apSession { merged := .list [.dict []], kw := kw }).2 = reply apEnv kw ⟨"SELECT 1", none, some "MERGED"⟩ := by
    intro kw hk
    unfold getSqlQuery route
    rw [if_neg (by simp), if_neg (by simp), ap_inUse]
    simp only
    rw [hk]
    rfl
  refine ⟨h [] rfl, ?_⟩
  refine (C67_never_runs apEnv apSession { kw := [("merged_queries", .list [.dict []])] } (by unfold Dict; decide) (Or.inr ⟨rfl, rfl⟩)).2
    [("merged_queries", .list [.dict []])] (.withConn "SELECT 1" none) rfl rfl ?_
  exact h [("return_connection", .bool true)] rfl

/-- The table name before and after a query. -/
example : ((ApiOp.tableName "v").run apEnv apSession).2 = .ok (.text "v") ∧
    ((ApiOp.tableName "v").run apEnv ((ApiOp.getSql apAsk).run apEnv apSession).1).2 = .ok (.text "main.v") := by
  refine ⟨rfl, ?_⟩
  obtain ⟨p, cs, n, c, h1, h2, h3, h4, h5⟩ := (C67_table_name apEnv apSession).1 apAsk _ "v" rfl (Or.inl (by decide)) (by unfold Dict; decide) ap_asked
  rw [h5]
  cases h1
  have e : cs = [cnConn] := by
    have := ap_conns
    rw [show apSession.conns = [.dict cnSnowflake] from rfl, this] at h2
    cases h2; rfl
  subst e
  have e2 : n = some "sf" := by
    have h6 : apEnv.modelConn "orders" none ⟨apAsk.metrics, apAsk.dimensions, apAsk.funnel, apAsk.where_, apAsk.having, apAsk.orderBy⟩
        (kwMerge apSession.kw apAsk.kw) = .ok (some "sf") := rfl
    have h7 := h3.symm.trans h6
    cases h7; rfl
  subst e2
  have e3 : c = some cnConn := by
    cases c with
    | none => exact absurd rfl (h4 cnConn (by simp) "sf" rfl)
    | some c =>
      obtain ⟨m, pre, post, _, _, h, _⟩ := h4
      cases pre with
      | nil => cases h; rfl
      | cons _ l => cases l <;> simp at h
  subst e3
  rfl

/-- A question for which there is no connection is refused, and so is one with an option under the name of an argument. -/
example : (getSqlQuery apEnv apSession { metrics := ["elsewhere"] }).2 = .error .query ∧
    (getSqlQuery apEnv apSession { metrics := ["total"], kw := [("project", .null)] }).2 = .error .typeError := by
  have hc : loadConnections apEnv.creds apSession.conns = .ok [cnConn] := ap_conns
  refine ⟨(C67_refused apEnv apSession _ [cnConn] { metrics := ["elsewhere"] } rfl (Or.inl (by decide)) rfl hc).2
    (by decide) (by unfold Dict; decide) none rfl ?_ rfl,
    (C67_refused apEnv apSession _ [cnConn] { metrics := ["total"], kw := [("project", .null)] } rfl (Or.inl (by decide)) rfl hc).1
      ⟨"project", by decide, by decide⟩⟩
  intro c _ m h
  cases h

/-- A history: the user who was set last, whatever was refused in between. -/
example (u w : User) :
    let s := runAll apEnv (newSession (P := String) (some "here") none [.dict cnSnowflake] none [])
      [.setUser (some u), .load (.ok ("orders", ["main"])), .getSql apAsk, .setUser (some w), .load (.error .other)]
    s.user = some w ∧ (∀ p, s.project = some p → p.user = some w) ∧ s.project.map (·.content) = some "orders" := by
  intro s
  have h := C67_user apEnv (some "here") none [.dict cnSnowflake] none []
    [.setUser (some u), .load (.ok ("orders", ["main"])), .getSql apAsk, .setUser (some w), .load (.error .other)]
  refine ⟨h.1, h.2, ?_⟩
  exact (C67_project apEnv (newSession (P := String) (some "here") none [.dict cnSnowflake] none [])).2.1 [.setUser (some u)]
    [.getSql apAsk, .setUser (some w), .load (.error .other)] "orders" ["main"] [cnConn] "here" rfl (by simp [isRead]) ap_conns

/-- Two connections of one name: a load keeps the type of the second, a query asks the first. -/
example : dictGet (lookupOf [cnConn, ⟨.redshift, [("type", .str "REDSHIFT"), ("name", .str "sf")]⟩]) "sf" = some (.str "REDSHIFT") ∧
    findConn [cnConn, ⟨.redshift, [("type", .str "REDSHIFT"), ("name", .str "sf")]⟩] (some "sf") = some cnConn := ⟨by rfl, by rfl⟩

end ML
