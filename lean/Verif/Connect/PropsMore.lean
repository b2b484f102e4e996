import Verif.Connect.PropsRun
import Verif.MergePlan.Texts
/-
C66: the credentials of BigQuery, the text of a connection, what is a local repository, what else is refused.
-/
set_option autoImplicit false
namespace ML
open Spec

theorem credsToUse_eq (a : Kw) : credsToUse a = (usedCreds a).getD .null := by
  unfold credsToUse usedCreds argNone argOr
  have : ((dictGet a "credentials").getD Yaml.null).truthy = truthyOpt (dictGet a "credentials") := by
    cases dictGet a "credentials" <;> rfl
  rw [this]
  split_ifs <;> rfl

theorem readCreds_ok (E : CredEnv) (a : Kw) (v : Yaml) : readCreds E a (credsToUse a) = .ok v ↔ CredsAre E a v := by
  rw [credsToUse_eq]
  constructor
  · intro h
    cases hu : usedCreds a with
    | none => rw [hu] at h; cases h
    | some x =>
      rw [hu] at h
      cases x with
      | dict d => cases h; exact .dict d hu
      | str s =>
        simp only [Option.getD_some, readCreds] at h
        cases hj : E.json s with
        | some w => rw [hj] at h; cases h; exact .json s _ hu hj
        | none =>
          rw [hj] at h
          simp only at h
          by_cases ha : E.isAbs s = true
          · rw [if_pos ha] at h; exact .absolute s v hu hj ha h
          · rw [if_neg ha] at h
            cases hd : dictGet a "directory" with
            | none => rw [hd] at h; cases h
            | some y =>
              rw [hd] at h
              cases y with
              | str dir => exact .relative s dir v hu hj (by simpa using ha) hd h
              | _ => cases h
      | _ => cases h
  · intro h
    cases h with
    | dict d hu => rw [hu]; rfl
    | json s _ hu hj => rw [hu]; simp only [Option.getD_some, readCreds, hj]
    | absolute s _ hu hj ha hf => rw [hu]; simp only [Option.getD_some, readCreds, hj, ha, if_true, hf]
    | relative s dir _ hu hj ha hd hf => rw [hu]; simp [readCreds, hj, ha, hd, hf]

theorem loadOne_bigquery (E : CredEnv) (a : Kw) (t : String) (ht : dictGet a "type" = some (.str t)) (hq : upper t = "BIGQUERY") :
    loadOne E (.dict a) = mkBigQuery E a := by
  unfold loadOne
  simp only [ht, hq]
  rfl

theorem mkBigQuery_steps (E : CredEnv) (a : Kw) (hn : (dictGet a "name").isSome = true) :
    mkBigQuery E a = (readCreds E a (credsToUse a)).bind fun creds => (projectId creds).bind fun pid =>
      .ok ⟨.bigquery, [("type", .str "BIGQUERY"), ("name", argNone a "name"), ("schema", argNone a "schema"),
        ("credentials", creds), ("project_id", pid), ("database", pid)]⟩ := by
  unfold mkBigQuery
  rw [needArgs_ok.mpr (by simpa using hn)]
  rfl

/-- C66. **The credentials of BigQuery.** A connection that has a name can be made just when its credentials are a dictionary with a project, given as
such, as JSON or in a file; it is made of them, and hands them on with their project, which is its database as well. -/
theorem C66_bigquery (E : CredEnv) (a : Kw) (t : String) (n : Yaml) (ht : dictGet a "type" = some (.str t)) (hq : upper t = "BIGQUERY")
    (hn : dictGet a "name" = some n) :
    (∀ d p, CredsAre E a (.dict d) → dictGet d "project_id" = some p → ∃ c, loadOne E (.dict a) = .ok c ∧
      dictGet c.attrs "database" = some p ∧
      c.toDict = .ok [("name", n), ("credentials", .dict d), ("project_id", p), ("type", .str "BIGQUERY")]) ∧
    (∀ c, loadOne E (.dict a) = .ok c → ∃ d p, CredsAre E a (.dict d) ∧ dictGet d "project_id" = some p) ∧
    (∀ d, CredsAre E a (.dict d) → dictGet d "project_id" = none → loadOne E (.dict a) = .error .keyError) ∧
    (∀ v, CredsAre E a v → (∀ d, v ≠ .dict d) → loadOne E (.dict a) = .error .typeError) := by
  rw [loadOne_bigquery E a t ht hq, mkBigQuery_steps E a (by rw [hn]; rfl)]
  have hname : argNone a "name" = n := by unfold argNone argOr; rw [hn]; rfl
  refine ⟨?_, ?_, ?_, ?_⟩
  · intro d p hc hp
    rw [(readCreds_ok E a _).mpr hc]
    show ∃ c, (projectId (.dict d)).bind _ = _ ∧ _
    unfold projectId
    simp only [hp, Except.bind, hname]
    refine ⟨_, rfl, rfl, rfl⟩
  · intro c hc
    cases hr : readCreds E a (credsToUse a) with
    | error e => rw [hr] at hc; cases hc
    | ok v =>
      rw [hr] at hc
      change (projectId v).bind _ = _ at hc
      have hv := (readCreds_ok E a v).mp hr
      cases v with
      | dict d =>
        unfold projectId at hc
        cases hp : dictGet d "project_id" with
        | none => simp only [hp] at hc; cases hc
        | some p => exact ⟨d, p, hv, hp⟩
      | _ => cases hc
  · intro d hc hp
    rw [(readCreds_ok E a _).mpr hc]
    show (projectId (.dict d)).bind _ = _
    unfold projectId
    simp only [hp]
    rfl
  · intro v hc hv
    rw [(readCreds_ok E a _).mpr hc]
    show (projectId v).bind _ = _
    cases v with
    | dict d => exact absurd rfl (hv d)
    | _ => rfl

/-- C66. What BigQuery credentials are refused for: TypeError when they are missing or neither a dictionary nor a text; KeyError when they are the
name of a file that is not absolute and no directory is known. -/
theorem C66_bigquery_refused (E : CredEnv) (a : Kw) (t : String) (n : Yaml) (ht : dictGet a "type" = some (.str t)) (hq : upper t = "BIGQUERY")
    (hn : dictGet a "name" = some n) :
    (usedCreds a = none → loadOne E (.dict a) = .error .typeError) ∧
    (∀ v, usedCreds a = some v → (∀ d, v ≠ .dict d) → (∀ s, v ≠ .str s) → loadOne E (.dict a) = .error .typeError) ∧
    (∀ s, usedCreds a = some (.str s) → E.json s = none → E.isAbs s = false → dictGet a "directory" = none →
      loadOne E (.dict a) = .error .keyError) ∧
    (∀ s v, usedCreds a = some (.str s) → E.json s = none → E.isAbs s = false → dictGet a "directory" = some v → (∀ x, v ≠ .str x) →
      loadOne E (.dict a) = .error .typeError) := by
  rw [loadOne_bigquery E a t ht hq, mkBigQuery_steps E a (by rw [hn]; rfl), credsToUse_eq]
  refine ⟨?_, ?_, ?_, ?_⟩
  · intro h; rw [h]; rfl
  · intro v h h1 h2
    rw [h]
    cases v with
    | dict d => exact absurd rfl (h1 d)
    | str s => exact absurd rfl (h2 s)
    | _ => rfl
  · intro s h hj ha hd
    rw [h]
    simp only [Option.getD_some, readCreds, hj, ha, hd]
    rfl
  · intro s v h hj ha hd hv
    rw [h]
    simp only [Option.getD_some, readCreds, hj, ha, hd]
    cases v with
    | str x => exact absurd rfl (hv x)
    | _ => rfl

/-- A file of credentials in the directory of the profiles. -/
example : ∃ (E : CredEnv) (a : Kw), CredsAre E a (.dict [("project_id", .str "p")]) ∧ dictGet a "name" = some (.str "bq") :=
  ⟨⟨fun _ => none, fun _ => false, fun d s => d ++ "/" ++ s, fun f => if f = "/dbt/key.json" then .ok (.dict [("project_id", .str "p")]) else .error .other⟩,
    [("name", .str "bq"), ("keyfile", .str "key.json"), ("directory", .str "/dbt")],
    .relative "key.json" "/dbt" _ rfl rfl rfl rfl (by rfl), rfl⟩

/-- C66. The text of a connection: the name of its class and its own. -/
theorem C66_repr (render : Yaml → String) (c : Conn) (n : String) (hn : dictGet c.attrs "name" = some (.str n)) :
    c.repr render = .ok ("<" ++ (match c.cls with
      | .snowflake => "Snowflake" | .redshift => "Redshift" | .bigquery => "BigQuery" | .postgres => "Postgres" | .druid => "Druid"
      | .sqlServer => "SQLServer" | .azureSynapse => "AzureSynapse" | .duckDb => "DuckDB" | .databricks => "Databricks"
      | .trino => "Trino") ++ "Connection" ++ " name=" ++ n ++ ">") := by
  unfold Conn.repr
  rw [attr_ok.mpr hn]
  show Except.ok _ = _
  congr 1
  cases c.cls <;> simp [ConnCls.className, textOfValue]

/-- C66. A repository is on a disk unless its address, whatever its case, has `http://` or `https://` in it or begins with `git@`. -/
theorem C66_local (location : String) :
    isLocal location = false ↔
      (∃ pre post, (lower location).toList = pre ++ "http://".toList ++ post) ∨ (∃ pre post, (lower location).toList = pre ++ "https://".toList ++ post) ∨
      ∃ post, (lower location).toList = "git@".toList ++ post := by
  unfold isLocal
  simp only [Bool.not_eq_false', Bool.or_eq_true, containsSub_iff, isPrefix, List.isPrefixOf_iff_prefix, or_assoc]
  constructor
  · rintro (⟨a, b, h⟩ | ⟨a, b, h⟩ | ⟨b, h⟩)
    · exact .inl ⟨a, b, h.symm⟩
    · exact .inr (.inl ⟨a, b, h.symm⟩)
    · exact .inr (.inr ⟨b, h.symm⟩)
  · rintro (⟨a, b, h⟩ | ⟨a, b, h⟩ | ⟨b, h⟩)
    · exact .inl ⟨a, b, h.symm⟩
    · exact .inr (.inl ⟨a, b, h.symm⟩)
    · exact .inr (.inr ⟨b, h.symm⟩)

/-- C66. What else a dbt profile is refused for: KeyError when no target is asked for and the profile has none, or when it has no outputs; ConfigError when its
target is no text, for no output is called so. -/
theorem C66_profile_refused (ps : List (String × Kw)) (dir name : String) (profile : Kw) (h : dictGet ps name = some profile) :
    (dictGet profile "target" = none → profileConnections (some ps) dir name none = .error .keyError) ∧
    (∀ t, dictGet profile "outputs" = none → profileConnections (some ps) dir name (some t) = .error .keyError) ∧
    (∀ t, dictGet profile "target" = some (.str t) → dictGet profile "outputs" = none → profileConnections (some ps) dir name none = .error .keyError) ∧
    (∀ t outs, dictGet profile "outputs" = some (.dict outs) → dictGet outs t = some .null →
      profileConnections (some ps) dir name (some t) = .error .other) ∧
    (∀ v, dictGet profile "target" = some v → (∀ t, v ≠ .str t) → profileConnections (some ps) dir name none = .error .other) := by
  unfold profileConnections
  simp only [h]
  refine ⟨?_, ?_, ?_, ?_, ?_⟩
  · intro ht; simp only [profileTarget, ht]; rfl
  · intro t ho; simp only [profileTarget, Except.bind, profileOutput, ho]
  · intro t ht ho; simp only [profileTarget, ht, Except.bind, profileOutput, ho]
  · intro t outs ho hn; simp only [profileTarget, Except.bind, profileOutput, ho, hn]
  · intro v hv hn
    simp only [profileTarget, hv]
    cases v with
    | str t => exact absurd rfl (hn t)
    | _ => rfl

/-- C66. The user of a Postgres or DuckDB connection can be read as `user` and as `username`. -/
theorem C66_user_twice (E : CredEnv) (a : Kw) (c : Conn) (h : loadOne E (.dict a) = .ok c) (hc : c.cls = .postgres ∨ c.cls = .duckDb) :
    dictGet c.attrs "user" = dictGet a "user" ∧ dictGet c.attrs "username" = dictGet a "user" := by
  obtain ⟨t, cls, -, -, hm⟩ := loadOne_dict_ok h
  have hcls := (mkConn_name_type E cls a c hm).1
  have key : ∀ v, dictGet a "user" = some v → argNone a "user" = v := by
    intro v hv; unfold argNone argOr; rw [hv]; rfl
  rw [hcls] at hc
  rcases hc with rfl | rfl
  · change mkPostgres a = _ at hm
    unfold mkPostgres at hm
    cases hn : needArgs a ["name", "host", "user", "password"] with
    | error e => rw [hn] at hm; cases hm
    | ok u =>
      rw [hn] at hm
      cases hm
      obtain ⟨v, hv⟩ := Option.isSome_iff_exists.mp (needArgs_ok.mp hn "user" (by simp))
      rw [hv]
      simp [dictGet, key v hv]
  · change mkDuckDb a = _ at hm
    unfold mkDuckDb at hm
    cases hn : needArgs a ["name", "host", "user", "password"] with
    | error e => rw [hn] at hm; cases hm
    | ok u =>
      rw [hn] at hm
      cases hm
      obtain ⟨v, hv⟩ := Option.isSome_iff_exists.mp (needArgs_ok.mp hn "user" (by simp))
      rw [hv]
      simp [dictGet, key v hv]

/-- C66. A database of a Snowflake connection that is no text raises AttributeError before anything is run. -/
theorem C66_use_refused (render : Yaml → String) (sql : String) (c : Conn) (w d s : Yaml)
    (ht : dictGet c.attrs "type" = some (.str "SNOWFLAKE")) (hw : dictGet c.attrs "warehouse" = some w) (hd : dictGet c.attrs "database" = some d)
    (hs : dictGet c.attrs "schema" = some s) (hdt : d.truthy = true) (hdn : ∀ x, d ≠ .str x) :
    runQuery render sql (some c) [] = .error .attributeError := by
  have hu : upperValue d = .error .attributeError := by
    cases d with
    | str x => exact absurd rfl (hdn x)
    | _ => rfl
  have hp : preQueries render c false = .error .attributeError := by
    unfold preQueries
    rw [attr_ok.mpr hw, attr_ok.mpr hd, attr_ok.mpr hs]
    simp only [bind, Except.bind]
    unfold useIf
    simp only [hu, hdt, Bool.and_true, Bool.not_false, if_true, Except.map]
    split_ifs <;> rfl
  unfold runQuery newRunner
  simp only
  rw [attr_ok.mpr ht]
  simp only [bind, Except.bind]
  rw [if_pos (by decide)]
  simp only
  rw [if_pos trivial, if_pos (by rfl), hp]

/-- A connection whose database was written as a number. -/
example : ∃ c : Conn, dictGet c.attrs "type" = some (.str "SNOWFLAKE") ∧ dictGet c.attrs "warehouse" = some (.str "wh") ∧
    dictGet c.attrs "database" = some (.int 7) ∧ dictGet c.attrs "schema" = some .null ∧ (Yaml.int 7).truthy = true :=
  ⟨⟨.snowflake, [("type", .str "SNOWFLAKE"), ("warehouse", .str "wh"), ("database", .int 7), ("schema", .null)]⟩, rfl, rfl, rfl, rfl, rfl⟩

example : isLocal "HTTPS://github.com/x/y.git" = false ∧ isLocal "git@github.com:x/y.git" = false ∧ isLocal "./metrics" = true := by decide +kernel

end ML
