import Verif.Connect.PropsHand
/-
C66: what cannot be shown or handed on, and what is run in the warehouse.
-/
set_option autoImplicit false
namespace ML
open Spec

/-- The names of the attributes of a connection, with and without a user. -/
def attrNames : ConnCls → Bool → List String
  | .snowflake, _ => ["type", "name", "account", "username", "password", "role", "warehouse", "database", "schema"]
  | .redshift, _ => ["type", "name", "host", "port", "username", "password", "database", "schema"]
  | .bigquery, _ => ["type", "name", "schema", "credentials", "project_id", "database"]
  | .postgres, _ => ["type", "name", "host", "port", "user", "username", "password", "database", "dbname", "schema"]
  | .duckDb, _ => ["type", "name", "host", "port", "user", "username", "password", "database", "schema"]
  | .databricks, _ => ["type", "name", "host", "http_path", "username", "password", "personal_access_token", "client_id",
      "client_secret", "database", "schema"]
  | .trino, _ => ["type", "name", "host", "user", "port", "auth", "scheme", "database", "schema"]
  | .druid, true => ["type", "name", "host", "port", "user", "password", "path", "scheme", "database", "schema"]
  | .druid, false => ["type", "name", "host", "port", "password", "path", "scheme", "database", "schema"]
  | _, true => ["type", "name", "host", "port", "user", "password", "database", "schema"]
  | _, false => ["type", "name", "host", "port", "password", "database", "schema"]

/-- The classes whose constructor accepts a connection without a user. -/
def Spec.userOptional : List ConnCls := [.druid, .sqlServer, .azureSynapse]

theorem pickUser_none {a : Kw} (h : pickUser a = .ok none) : ¬ ConnGiven a "user" ∧ ¬ ConnGiven a "username" := by
  rcases pickUser_spec a with ⟨_, _, hp⟩ | ⟨h1, h2, _⟩ | ⟨u, _, _, hp⟩
  · rw [h] at hp; cases hp
  · exact ⟨h1, h2⟩
  · rw [h] at hp; cases hp

theorem pickUser_some {a : Kw} {u : Yaml} (h : pickUser a = .ok (some u)) : UserIs a u ∧ u.truthy = true := by
  rcases pickUser_spec a with ⟨_, _, hp⟩ | ⟨_, _, hp⟩ | ⟨u', h1, h2, hp⟩
  · rw [h] at hp; cases hp
  · rw [h] at hp; cases hp
  · rw [h] at hp; cases hp; exact ⟨h1, h2⟩

theorem userIs_not {a : Kw} {u : Yaml} (h : UserIs a u) : ConnGiven a "user" ∨ ConnGiven a "username" := by
  rcases h with ⟨h, _, _⟩ | ⟨h, _, _⟩
  · exact Or.inl h
  · exact Or.inr h

theorem mkConn_attrs (E : CredEnv) (cls : ConnCls) (a : Kw) (c : Conn) (h : mkConn E cls a = .ok c) :
    ∃ b, c.attrs.map (·.1) = attrNames c.cls b ∧
      (cls ∈ userOptional → (b = true ↔ (ConnGiven a "user" ∨ ConnGiven a "username"))) := by
  have key : ∀ {o : Option Yaml}, pickUser a = .ok o → (o.isSome = true ↔ (ConnGiven a "user" ∨ ConnGiven a "username")) := by
    intro o hp
    cases o with
    | none => exact ⟨fun h => by simp at h, fun hh => (hh.elim (pickUser_none hp).1 (pickUser_none hp).2).elim⟩
    | some u => exact ⟨fun _ => userIs_not (pickUser_some hp).1, fun _ => rfl⟩
  cases cls with
  | snowflake => obtain ⟨-, u, -, -, rfl⟩ := mkSnowflake_ok h; exact ⟨true, rfl, fun hh => absurd hh (by decide)⟩
  | redshift => obtain ⟨-, rfl⟩ := plain_ok h; exact ⟨true, rfl, fun hh => absurd hh (by decide)⟩
  | bigquery =>
    obtain ⟨-, creds, pid, -, -, rfl⟩ := mkBigQuery_ok h; exact ⟨true, rfl, fun hh => absurd hh (by decide)⟩
  | postgres => obtain ⟨-, rfl⟩ := plain_ok h; exact ⟨true, rfl, fun hh => absurd hh (by decide)⟩
  | druid => obtain ⟨-, o, hp, rfl⟩ := mkDruid_ok h; exact ⟨o.isSome, by cases o <;> rfl, fun _ => key hp⟩
  | sqlServer => obtain ⟨-, o, hp, rfl⟩ := mkSqlServer_ok h; exact ⟨o.isSome, by cases o <;> rfl, fun _ => key hp⟩
  | azureSynapse => obtain ⟨-, o, hp, rfl⟩ := mkSqlServer_ok h; exact ⟨o.isSome, by cases o <;> rfl, fun _ => key hp⟩
  | duckDb => obtain ⟨-, rfl⟩ := plain_ok h; exact ⟨true, rfl, fun hh => absurd hh (by decide)⟩
  | databricks => obtain ⟨-, rfl⟩ := plain_ok h; exact ⟨true, rfl, fun hh => absurd hh (by decide)⟩
  | trino => obtain ⟨-, rfl⟩ := plain_ok h; exact ⟨true, rfl, fun hh => absurd hh (by decide)⟩

/-- The attributes that `to_dict` always reads are there. -/
theorem mkConn_base (E : CredEnv) (cls : ConnCls) (a : Kw) (c : Conn) (h : mkConn E cls a = .ok c) :
    ∀ p ∈ baseKeys c.cls, (dictGet c.attrs p.2).isSome = true := by
  obtain ⟨b, hb, -⟩ := mkConn_attrs E cls a c h
  intro p hp
  rw [dictGet_isSome, hb]
  revert p
  generalize c.cls = cls'
  cases cls' <;> cases b <;> decide

/-- The attributes that `to_dict` reads when they are not empty are there, except the user of the three classes that do without. -/
theorem mkConn_truthy (E : CredEnv) (cls : ConnCls) (a : Kw) (c : Conn) (h : mkConn E cls a = .ok c)
    (hu : cls ∈ userOptional → ConnGiven a "user" ∨ ConnGiven a "username") :
    ∀ k ∈ truthyKeys c.cls, (dictGet c.attrs k).isSome = true := by
  obtain ⟨b, hb, hbu⟩ := mkConn_attrs E cls a c h
  rw [(mkConn_name_type E cls a c h).1] at hb ⊢
  intro k hk
  rw [dictGet_isSome, hb]
  have hbt : cls ∈ userOptional → b = true := fun hh => (hbu hh).2 (hu hh)
  revert k
  cases cls <;> cases b <;> first | decide | exact absurd (hbt (by decide)) (by decide)

/-- C66. A connection that could be made can be handed on, unless it is a Druid, SQL Server or Synapse connection without a user:
that one is accepted and then raises AttributeError. -/
theorem C66_usable (E : CredEnv) (a : Kw) (c : Conn) (h : loadOne E (.dict a) = .ok c) :
    if c.cls ∈ userOptional ∧ ¬ ConnGiven a "user" ∧ ¬ ConnGiven a "username" then
      c.toDict = .error .attributeError ∧ c.printable = .error .attributeError
    else ∃ d, c.toDict = .ok d := by
  obtain ⟨t, cls, -, -, hm⟩ := loadOne_dict_ok h
  have hc := (mkConn_name_type E cls a c hm).1
  split
  · rename_i hh
    obtain ⟨h1, h2, h3⟩ := hh
    have hp : pickUser a = .ok none := by
      rcases pickUser_spec a with ⟨h, _, _⟩ | ⟨_, _, hp⟩ | ⟨u, h, _, _⟩
      · exact absurd h h2
      · exact hp
      · exact ((userIs_not h).elim h2 h3).elim
    have key : c.toDict = .error .attributeError := by
      refine toDict_missing (mkConn_base E cls a c hm) ⟨"user", ?_, ?_⟩
      · rw [hc] at h1 ⊢
        revert h1
        cases cls <;> decide
      · rw [hc] at h1
        cases cls <;> first | (exfalso; revert h1; decide) | skip
        · obtain ⟨-, o, hp', rfl⟩ := mkDruid_ok hm
          rw [hp] at hp'; cases hp'; rfl
        · obtain ⟨-, o, hp', rfl⟩ := mkSqlServer_ok hm
          rw [hp] at hp'; cases hp'; rfl
        · obtain ⟨-, o, hp', rfl⟩ := mkSqlServer_ok hm
          rw [hp] at hp'; cases hp'; rfl
    refine ⟨key, ?_⟩
    unfold Conn.printable
    rw [key]
    rfl
  · rename_i hh
    refine toDict_ok (mkConn_base E cls a c hm) (mkConn_truthy E cls a c hm (fun hcls => ?_))
    rw [hc] at hh
    by_contra hno
    exact hh ⟨hcls, fun h => hno (Or.inl h), fun h => hno (Or.inr h)⟩

/-- C66. **What can be shown.** A connection that can be handed on can be shown, except that a Trino connection never can and that
one of Druid, SQL Server or Synapse needs a password: otherwise showing it raises KeyError. -/
theorem C66_showable (E : CredEnv) (a : Kw) (c : Conn) (d : Kw) (h : loadOne E (.dict a) = .ok c) (hd : c.toDict = .ok d) :
    if c.cls = .trino ∨ (c.cls ∈ userOptional ∧ ¬ ConnGiven a "password") then c.printable = .error .keyError
    else ∃ p, c.printable = .ok p := by
  obtain ⟨t, cls, -, -, hm⟩ := loadOne_dict_ok h
  obtain ⟨hc, hn, hn', -⟩ := mkConn_name_type E cls a c hm
  obtain ⟨n, hn⟩ := Option.isSome_iff_exists.1 hn
  rw [hn] at hn'
  rw [printable_eq hd hn', toDict_get hd]
  by_cases hopt : c.cls ∈ userOptional
  · have hpw : dictGet c.attrs "password" = some (argNone a "password") := by
      rw [hc] at hopt
      cases cls <;> first | (exfalso; revert hopt; decide) | skip
      · obtain ⟨-, o, -, rfl⟩ := mkDruid_ok hm; cases o <;> rfl
      · obtain ⟨-, o, -, rfl⟩ := mkSqlServer_ok hm; cases o <;> rfl
      · obtain ⟨-, o, -, rfl⟩ := mkSqlServer_ok hm; cases o <;> rfl
    have h1 : c.cls ≠ .trino := by intro e; rw [e] at hopt; revert hopt; decide
    have h2 : secretKey c.cls = "password" := by revert hopt; generalize c.cls = x; cases x <;> decide
    have h3 : "password" ∈ truthyKeys c.cls := by revert hopt; generalize c.cls = x; cases x <;> decide
    have h4 : dictGet (baseKeys c.cls) "password" = none := by revert hopt; generalize c.cls = x; cases x <;> decide
    have h5 : truthyOpt (dictGet c.attrs "password") = truthyOpt (dictGet a "password") := by
      rw [hpw]; exact truthy_argNone a "password"
    rw [h2, h4, h5]
    by_cases hg : truthyOpt (dictGet a "password") = true
    · have hg' : ConnGiven a "password" := hg
      rw [if_neg (by simp [h1, hg'])]
      simp [h3, hg, hpw]
    · have hg' : ¬ ConnGiven a "password" := hg
      rw [if_pos (Or.inr ⟨hopt, hg'⟩)]
      simp [hg]
  · have h0 : (c.cls = .trino ∨ c.cls ∈ userOptional ∧ ¬ ConnGiven a "password") ↔ c.cls = .trino := by simp [hopt]
    simp only [h0]
    rw [hc] at hopt
    cases cls with
    | snowflake => obtain ⟨-, u, -, -, rfl⟩ := mkSnowflake_ok hm; exact ⟨_, rfl⟩
    | redshift => obtain ⟨-, rfl⟩ := plain_ok hm; exact ⟨_, rfl⟩
    | bigquery => obtain ⟨-, creds, pid, -, -, rfl⟩ := mkBigQuery_ok hm; exact ⟨_, rfl⟩
    | postgres => obtain ⟨-, rfl⟩ := plain_ok hm; exact ⟨_, rfl⟩
    | duckDb => obtain ⟨-, rfl⟩ := plain_ok hm; exact ⟨_, rfl⟩
    | databricks => obtain ⟨-, rfl⟩ := plain_ok hm; exact ⟨_, rfl⟩
    | trino => obtain ⟨-, rfl⟩ := plain_ok hm; rfl
    | _ => exact absurd (by decide) hopt

/-- A Trino connection for the examples. -/
def cnTrino : Kw :=
  [("type", .str "trino"), ("name", .str "tr"), ("host", .str "h"), ("user", .str "ann"), ("database", .str "db")]

example : ∃ c d, loadOne cnEnv (.dict cnTrino) = .ok c ∧ c.toDict = .ok d ∧ c.printable = .error .keyError := by
  have h1 : classLookup (upper "trino") = some .trino := by decide +kernel
  refine ⟨⟨.trino, [("type", .str "TRINO"), ("name", .str "tr"), ("host", .str "h"), ("user", .str "ann"),
    ("port", .int 8080), ("auth", .null), ("scheme", .str "http"), ("database", .str "db"), ("schema", .null)]⟩,
    _, ?_, rfl, rfl⟩
  simp only [loadOne, cnTrino, dictGet]
  simp only [if_true]
  rw [h1]
  rfl

/-- C66. The user that is handed on is the one that was given, under `user` or `username`. -/
theorem C66_user (E : CredEnv) (a : Kw) (c : Conn) (d : Kw) (h : loadOne E (.dict a) = .ok c) (hd : c.toDict = .ok d) :
    (c.cls = .snowflake ∨ c.cls ∈ userOptional → ∃ u, UserIs a u ∧ dictGet d "user" = some u) ∧
    (c.cls = .postgres ∨ c.cls = .duckDb → dictGet d "username" = dictGet a "user") := by
  obtain ⟨t, cls, -, -, hm⟩ := loadOne_dict_ok h
  have hc := (mkConn_name_type E cls a c hm).1
  constructor
  · intro hcls
    by_cases hopt : c.cls ∈ userOptional
    · have hp : ∃ o, pickUser a = .ok o ∧ dictGet c.attrs "user" = o := by
        rw [hc] at hopt
        cases cls <;> first | (exfalso; revert hopt; decide) | skip
        · obtain ⟨-, o, hp, rfl⟩ := mkDruid_ok hm; exact ⟨o, hp, by cases o <;> rfl⟩
        · obtain ⟨-, o, hp, rfl⟩ := mkSqlServer_ok hm; exact ⟨o, hp, by cases o <;> rfl⟩
        · obtain ⟨-, o, hp, rfl⟩ := mkSqlServer_ok hm; exact ⟨o, hp, by cases o <;> rfl⟩
      have h3 : "user" ∈ truthyKeys c.cls := by revert hopt; generalize c.cls = x; cases x <;> decide
      obtain ⟨o, hp, ho⟩ := hp
      cases o with
      | none =>
        have := toDict_missing (mkConn_base E cls a c hm) ⟨"user", h3, ho⟩
        rw [hd] at this
        cases this
      | some u =>
        obtain ⟨hu, ht⟩ := pickUser_some hp
        refine ⟨u, hu, ?_⟩
        rw [toDict_get hd, ho]
        simp [h3, truthyOpt, ht]
    · have hs : c.cls = .snowflake := hcls.resolve_right hopt
      rw [hc] at hs
      subst hs
      obtain ⟨-, u, hu, -, rfl⟩ := mkSnowflake_ok hm
      refine ⟨u, hu, ?_⟩
      rw [toDict_get hd]
      rfl
  · intro hcls
    rw [hc] at hcls
    have hsome : ∀ {x : Option Yaml}, x.isSome = true → some (x.getD .null) = x := by
      intro x hx
      cases x with
      | none => simp at hx
      | some v => rfl
    rcases hcls with rfl | rfl
    · obtain ⟨hr, rfl⟩ := plain_ok hm
      rw [toDict_get hd]
      exact hsome (hr "user" (by decide))
    · obtain ⟨hr, rfl⟩ := plain_ok hm
      rw [toDict_get hd]
      exact hsome (hr "user" (by decide))

/-- C66. What is lost: the database and the schema of a Trino, SQL Server or Synapse connection, the schema of a BigQuery connection
and both of a Druid connection are not handed on, whatever was given. -/
theorem C66_lost (c : Conn) (d : Kw) (hd : c.toDict = .ok d)
    (hcls : c.cls = .trino ∨ c.cls = .bigquery ∨ c.cls ∈ userOptional) :
    dictGet d "database" = none ∧ dictGet d "schema" = none := by
  have key : ∀ k, k = "database" ∨ k = "schema" → dictGet d k = none := by
    intro k hk
    rw [toDict_get hd]
    have h1 : k ∉ truthyKeys c.cls := by
      revert hcls hk
      generalize c.cls = x
      rintro hx (rfl | rfl) <;> revert hx <;> cases x <;> decide
    have h2 : dictGet (baseKeys c.cls) k = none := by
      revert hcls hk
      generalize c.cls = x
      rintro hx (rfl | rfl) <;> revert hx <;> cases x <;> decide
    simp [h1, h2]
  exact ⟨key _ (Or.inl rfl), key _ (Or.inr rfl)⟩

end ML
