import Verif.Connect.Hand
import Verif.Connect.Props
/-
C66: what a connection stands for and what it hands on.
-/
set_option autoImplicit false
namespace ML
open Spec

/-- Every connection made of a dictionary has its name and says its type. -/
theorem mkConn_name_type (E : CredEnv) (cls : ConnCls) (a : Kw) (c : Conn) (h : mkConn E cls a = .ok c) :
    c.cls = cls ∧ (dictGet a "name").isSome = true ∧ dictGet c.attrs "name" = dictGet a "name" ∧
    dictGet c.attrs "type" = some (.str (if cls = .azureSynapse then "SQL_SERVER" else cls.key)) := by
  have hname : ∀ {x : Option Yaml}, x.isSome = true → some (x.getD .null) = x := by
    intro x hx
    cases x with
    | none => simp at hx
    | some v => rfl
  cases cls with
  | snowflake =>
    obtain ⟨hr, u, -, -, rfl⟩ := mkSnowflake_ok h
    have hn := hr "name" (by decide)
    exact ⟨rfl, hn, hname hn, rfl⟩
  | redshift =>
    obtain ⟨hr, rfl⟩ := plain_ok h
    have hn := hr "name" (by decide)
    exact ⟨rfl, hn, hname hn, rfl⟩
  | bigquery =>
    obtain ⟨hn, creds, pid, -, -, rfl⟩ := mkBigQuery_ok h
    exact ⟨rfl, hn, hname hn, rfl⟩
  | postgres =>
    obtain ⟨hr, rfl⟩ := plain_ok h
    have hn := hr "name" (by decide)
    exact ⟨rfl, hn, hname hn, rfl⟩
  | druid =>
    obtain ⟨hr, o, -, rfl⟩ := mkDruid_ok h
    have hn := hr "name" (by decide)
    exact ⟨rfl, hn, hname hn, rfl⟩
  | sqlServer =>
    obtain ⟨hr, o, -, rfl⟩ := mkSqlServer_ok h
    have hn := hr "name" (by decide)
    exact ⟨rfl, hn, hname hn, rfl⟩
  | azureSynapse =>
    obtain ⟨hr, o, -, rfl⟩ := mkSqlServer_ok h
    have hn := hr "name" (by decide)
    exact ⟨rfl, hn, hname hn, rfl⟩
  | duckDb =>
    obtain ⟨hr, rfl⟩ := plain_ok h
    have hn := hr "name" (by decide)
    exact ⟨rfl, hn, hname hn, rfl⟩
  | databricks =>
    obtain ⟨hr, rfl⟩ := plain_ok h
    have hn := hr "name" (by decide)
    exact ⟨rfl, hn, hname hn, rfl⟩
  | trino =>
    obtain ⟨hr, rfl⟩ := plain_ok h
    have hn := hr "name" (by decide)
    exact ⟨rfl, hn, hname hn, rfl⟩

theorem loadOne_dict_ok {E : CredEnv} {a : Kw} {c : Conn} (h : loadOne E (.dict a) = .ok c) :
    ∃ t cls, dictGet a "type" = some (.str t) ∧ cls.key = upper t ∧ mkConn E cls a = .ok c := by
  unfold loadOne at h
  simp only at h
  cases ht : dictGet a "type" with
  | none => rw [ht] at h; cases h
  | some v =>
    rw [ht] at h
    cases v with
    | str t =>
      simp only at h
      cases hc : classLookup (upper t) with
      | none => rw [hc] at h; cases h
      | some cls =>
        rw [hc] at h
        exact ⟨t, cls, rfl, classLookup_some.1 hc, h⟩
    | _ => cases h

/-- C66. Loading gives one connection for each thing that was handed in, in that order, each standing for it. -/
theorem C66_load (E : CredEnv) : ∀ (raws : List RawConn) (cs : List Conn), loadConnections E raws = .ok cs →
    List.Forall₂ ConnFor raws cs := by
  intro raws
  induction raws with
  | nil => intro cs h; cases h; exact List.Forall₂.nil
  | cons r rs ih =>
    intro cs h
    simp only [loadConnections] at h
    cases hr : loadOne E r with
    | error e => rw [hr] at h; cases h
    | ok c =>
      rw [hr] at h
      change (loadConnections E rs).bind _ = _ at h
      cases hs : loadConnections E rs with
      | error e => rw [hs] at h; cases h
      | ok cs' =>
        rw [hs] at h
        cases h
        refine List.Forall₂.cons ?_ (ih cs' hs)
        cases r with
        | obj c0 => cases hr; rfl
        | dict a =>
          obtain ⟨t, cls, ht, hk, hm⟩ := loadOne_dict_ok hr
          obtain ⟨h1, h2, h3, h4⟩ := mkConn_name_type E cls a c hm
          obtain ⟨n, hn⟩ := Option.isSome_iff_exists.1 h2
          refine ⟨t, n, ht, hn, by rw [h1]; exact hk, by rw [h3]; exact hn, ?_⟩
          rw [h4, h1, ← hk]

/-- A Snowflake and a Synapse connection for the examples. -/
def cnSnowflake : Kw :=
  [("type", .str "snowflake"), ("name", .str "sf"), ("account", .str "acc"), ("password", .str "pw"), ("user", .str "ann"),
    ("warehouse", .str "wh"), ("schema", .str "main")]
/-- See `cnSnowflake`. -/
def cnSynapse : Kw := [("type", .str "Azure_Synapse"), ("name", .str "az"), ("host", .str "h"), ("username", .str "bo")]

example : ∃ c c', loadConnections cnEnv [.dict cnSnowflake, .dict cnSynapse] = .ok [c, c'] ∧
    dictGet c'.attrs "type" = some (.str "SQL_SERVER") := by
  have h1 : classLookup (upper "snowflake") = some .snowflake := by decide +kernel
  have h2 : classLookup (upper "Azure_Synapse") = some .azureSynapse := by decide +kernel
  refine ⟨⟨.snowflake, [("type", .str "SNOWFLAKE"), ("name", .str "sf"), ("account", .str "acc"), ("username", .str "ann"),
    ("password", .str "pw"), ("role", .null), ("warehouse", .str "wh"), ("database", .null), ("schema", .str "main")]⟩,
    ⟨.azureSynapse, [("type", .str "SQL_SERVER"), ("name", .str "az"), ("host", .str "h"), ("port", .int 1433),
    ("user", .str "bo"), ("password", .null), ("database", .null), ("schema", .null)]⟩, ?_, rfl⟩
  simp only [loadConnections, loadOne, cnSnowflake, cnSynapse, dictGet]
  simp only [if_true]
  rw [h1, h2]
  rfl

/-- C66. What is refused, and why. The whole list is refused for the first connection that is: a dictionary without `type` or
with one that is not known, without an argument it must have, or with a user said twice. -/
theorem C66_refused (E : CredEnv) :
    (∀ (pre : List RawConn) (r : RawConn) (post : List RawConn) (cs : List Conn) (e : Err),
      loadConnections E pre = .ok cs → loadOne E r = .error e → loadConnections E (pre ++ r :: post) = .error e) ∧
    (∀ a, dictGet a "type" = none → loadOne E (.dict a) = .error .keyError) ∧
    (∀ a t, dictGet a "type" = some (.str t) → (∀ cls : ConnCls, cls.key ≠ upper t) →
      loadOne E (.dict a) = .error .keyError) ∧
    (∀ a t cls, dictGet a "type" = some (.str t) → ConnCls.key cls = upper t → (∃ k ∈ required cls, dictGet a k = none) →
      loadOne E (.dict a) = .error .typeError) ∧
    (∀ a t cls, dictGet a "type" = some (.str t) → ConnCls.key cls = upper t → (∀ k ∈ required cls, (dictGet a k).isSome = true) →
      cls ∈ [ConnCls.snowflake, .druid, .sqlServer, .azureSynapse] → ConnGiven a "user" → ConnGiven a "username" →
      loadOne E (.dict a) = .error .argument) ∧
    (∀ a t, dictGet a "type" = some (.str t) → upper t = "SNOWFLAKE" → (∀ k ∈ required .snowflake, (dictGet a k).isSome = true) →
      ¬ ConnGiven a "user" → ¬ ConnGiven a "username" → loadOne E (.dict a) = .error .argument) := by
  have hcls : ∀ a t cls, dictGet a "type" = some (.str t) → ConnCls.key cls = upper t →
      loadOne E (.dict a) = mkConn E cls a := by
    intro a t cls ht hk
    unfold loadOne
    simp only
    rw [ht]
    simp only
    rw [classLookup_some.2 hk]
  refine ⟨?_, ?_, ?_, ?_, ?_, ?_⟩
  · intro pre r post cs e hp hr
    revert cs
    induction pre with
    | nil =>
      intro cs _
      show (loadOne E r).bind _ = _
      rw [hr]
      rfl
    | cons p pre ih =>
      intro cs hp
      simp only [loadConnections, List.cons_append] at hp ⊢
      cases h1 : loadOne E p with
      | error e => rw [h1] at hp; cases hp
      | ok c =>
        rw [h1] at hp
        change (loadConnections E pre).bind _ = _ at hp
        cases h2 : loadConnections E pre with
        | error e => rw [h2] at hp; cases hp
        | ok cs' =>
          show (loadConnections E (pre ++ r :: post)).bind _ = _
          rw [ih cs' h2]
          rfl
  · intro a h
    unfold loadOne
    simp only
    rw [h]
  · intro a t ht hk
    unfold loadOne
    simp only
    rw [ht]
    simp only
    cases hc : classLookup (upper t) with
    | none => rfl
    | some cls => exact absurd (classLookup_some.1 hc) (hk cls)
  · intro a t cls ht hk hm
    rw [hcls a t cls ht hk]
    have key : ∀ ks, (∃ k ∈ ks, dictGet a k = none) → needArgs a ks = .error .typeError := by
      intro ks hks
      cases hn : needArgs a ks with
      | error e => rw [(needArgs_error hn).1]
      | ok u =>
        obtain ⟨k, hk, hnone⟩ := hks
        have := needArgs_ok.1 (by rw [hn]) k hk
        rw [hnone] at this
        simp at this
    have hn := key _ hm
    cases cls <;> simp only [required] at hn <;>
      simp only [mkConn, mkSnowflake, mkRedshift, mkBigQuery, mkPostgres, mkDruid, mkSqlServer, mkDuckDb, mkDatabricks, mkTrino,
        hn] <;> rfl
  · intro a t cls ht hk hr hc hu hv
    rw [hcls a t cls ht hk]
    have hn := needArgs_ok.2 hr
    have hp : pickUser a = .error .argument := by
      rcases pickUser_spec a with ⟨_, _, hp⟩ | ⟨h, _, _⟩ | ⟨u, h, _, _⟩
      · exact hp
      · exact absurd hu h
      · rcases h with ⟨_, h, _⟩ | ⟨_, h, _⟩
        · exact absurd hv h
        · exact absurd hu h
    cases cls <;> first | (exfalso; revert hc; decide) | skip
    all_goals
      simp only [required] at hn
      simp only [mkConn, mkSnowflake, mkDruid, mkSqlServer, hn, hp]
      rfl
  · intro a t ht hk hr hu hv
    rw [hcls a t .snowflake ht hk.symm]
    have hn := needArgs_ok.2 hr
    have hp : pickUser a = .ok none := by
      rcases pickUser_spec a with ⟨h, _, _⟩ | ⟨_, _, hp⟩ | ⟨u, h, _, _⟩
      · exact absurd h hu
      · exact hp
      · rcases h with ⟨h, _, _⟩ | ⟨h, _, _⟩
        · exact absurd h hu
        · exact absurd h hv
    simp only [required] at hn
    simp only [mkConn, mkSnowflake, hn, hp]
    rfl

example : dictGet (cnSnowflake ++ [("username", .str "bob")]) "type" = some (.str "snowflake") ∧
    ConnCls.key .snowflake = upper "snowflake" ∧
    (∀ k ∈ required .snowflake, (dictGet (cnSnowflake ++ [("username", .str "bob")]) k).isSome = true) ∧
    ConnGiven (cnSnowflake ++ [("username", .str "bob")]) "user" ∧ ConnGiven (cnSnowflake ++ [("username", .str "bob")]) "username" :=
  ⟨by rfl, by decide +kernel, by decide, by unfold ConnGiven; decide, by unfold ConnGiven; decide⟩

/-- What `ConnGiven` says of an argument. -/
theorem connGiven_some {a : Kw} {k : String} (h : ConnGiven a k) : ∃ v, dictGet a k = some v ∧ v.truthy = true := by
  unfold ConnGiven at h
  cases hd : dictGet a k with
  | none => rw [hd] at h; simp [truthyOpt] at h
  | some v => rw [hd] at h; exact ⟨v, rfl, h⟩

theorem handed_snowflake (E : CredEnv) (a : Kw) (c : Conn) (hm : mkConn E .snowflake a = .ok c) (k : String)
    (hk : k ∈ handed c.cls) (v : Yaml) (ht : v.truthy = true) (hnone : argNone a k = v) (hor : ∀ x, argOr a k x = v) :
    (if k ∈ truthyKeys c.cls ∧ truthyOpt (dictGet c.attrs k) = true then dictGet c.attrs k
      else (dictGet (baseKeys c.cls) k).bind (dictGet c.attrs)) = some v := by
  obtain ⟨hr, u, -, -, rfl⟩ := mkSnowflake_ok hm
  simp only [handed, List.mem_cons, List.not_mem_nil, or_false] at hk
  rcases hk with rfl | rfl | rfl | rfl | rfl | rfl | rfl <;>
    simp [truthyKeys, baseKeys, dictGet, hnone, truthyOpt, ht]

theorem handed_redshift (E : CredEnv) (a : Kw) (c : Conn) (hm : mkConn E .redshift a = .ok c) (k : String)
    (hk : k ∈ handed c.cls) (v : Yaml) (ht : v.truthy = true) (hnone : argNone a k = v) (hor : ∀ x, argOr a k x = v) :
    (if k ∈ truthyKeys c.cls ∧ truthyOpt (dictGet c.attrs k) = true then dictGet c.attrs k
      else (dictGet (baseKeys c.cls) k).bind (dictGet c.attrs)) = some v := by
  obtain ⟨hr, rfl⟩ := plain_ok hm
  simp only [handed, List.mem_cons, List.not_mem_nil, or_false] at hk
  rcases hk with rfl | rfl | rfl | rfl | rfl | rfl | rfl <;>
    simp [truthyKeys, baseKeys, dictGet, hnone, hor, truthyOpt, ht]

theorem handed_bigquery (E : CredEnv) (a : Kw) (c : Conn) (hm : mkConn E .bigquery a = .ok c) (k : String)
    (hk : k ∈ handed c.cls) (v : Yaml) (_ : v.truthy = true) (hnone : argNone a k = v) (hor : ∀ x, argOr a k x = v) :
    (if k ∈ truthyKeys c.cls ∧ truthyOpt (dictGet c.attrs k) = true then dictGet c.attrs k
      else (dictGet (baseKeys c.cls) k).bind (dictGet c.attrs)) = some v := by
  obtain ⟨hr, creds, pid, -, -, rfl⟩ := mkBigQuery_ok hm
  simp only [handed, List.mem_cons, List.not_mem_nil, or_false] at hk
  subst hk
  simp [truthyKeys, baseKeys, dictGet, hnone]

theorem handed_postgres (E : CredEnv) (a : Kw) (c : Conn) (hm : mkConn E .postgres a = .ok c) (k : String)
    (hk : k ∈ handed c.cls) (v : Yaml) (ht : v.truthy = true) (hnone : argNone a k = v) (hor : ∀ x, argOr a k x = v) :
    (if k ∈ truthyKeys c.cls ∧ truthyOpt (dictGet c.attrs k) = true then dictGet c.attrs k
      else (dictGet (baseKeys c.cls) k).bind (dictGet c.attrs)) = some v := by
  obtain ⟨hr, rfl⟩ := plain_ok hm
  simp only [handed, List.mem_cons, List.not_mem_nil, or_false] at hk
  rcases hk with rfl | rfl | rfl | rfl | rfl <;>
    simp [truthyKeys, baseKeys, dictGet, hnone, hor, truthyOpt, ht]

theorem handed_druid (E : CredEnv) (a : Kw) (c : Conn) (hm : mkConn E .druid a = .ok c) (k : String)
    (hk : k ∈ handed c.cls) (v : Yaml) (ht : v.truthy = true) (hnone : argNone a k = v) (hor : ∀ x, argOr a k x = v) :
    (if k ∈ truthyKeys c.cls ∧ truthyOpt (dictGet c.attrs k) = true then dictGet c.attrs k
      else (dictGet (baseKeys c.cls) k).bind (dictGet c.attrs)) = some v := by
  obtain ⟨hr, o, -, rfl⟩ := mkDruid_ok hm
  simp only [handed, List.mem_cons, List.not_mem_nil, or_false] at hk
  cases o <;> rcases hk with rfl | rfl | rfl | rfl | rfl | rfl <;>
    simp [truthyKeys, baseKeys, dictGet, hnone, hor, truthyOpt, ht, userAttr]

theorem handed_sqlServer (E : CredEnv) (a : Kw) (c : Conn) (hm : mkConn E .sqlServer a = .ok c) (k : String)
    (hk : k ∈ handed c.cls) (v : Yaml) (ht : v.truthy = true) (hnone : argNone a k = v) (hor : ∀ x, argOr a k x = v) :
    (if k ∈ truthyKeys c.cls ∧ truthyOpt (dictGet c.attrs k) = true then dictGet c.attrs k
      else (dictGet (baseKeys c.cls) k).bind (dictGet c.attrs)) = some v := by
  obtain ⟨hr, o, -, rfl⟩ := mkSqlServer_ok hm
  simp only [handed, List.mem_cons, List.not_mem_nil, or_false] at hk
  cases o <;> rcases hk with rfl | rfl | rfl | rfl <;>
    simp [truthyKeys, baseKeys, dictGet, hnone, hor, truthyOpt, ht, userAttr]

theorem handed_azureSynapse (E : CredEnv) (a : Kw) (c : Conn) (hm : mkConn E .azureSynapse a = .ok c) (k : String)
    (hk : k ∈ handed c.cls) (v : Yaml) (ht : v.truthy = true) (hnone : argNone a k = v) (hor : ∀ x, argOr a k x = v) :
    (if k ∈ truthyKeys c.cls ∧ truthyOpt (dictGet c.attrs k) = true then dictGet c.attrs k
      else (dictGet (baseKeys c.cls) k).bind (dictGet c.attrs)) = some v := by
  obtain ⟨hr, o, -, rfl⟩ := mkSqlServer_ok hm
  simp only [handed, List.mem_cons, List.not_mem_nil, or_false] at hk
  cases o <;> rcases hk with rfl | rfl | rfl | rfl <;>
    simp [truthyKeys, baseKeys, dictGet, hnone, hor, truthyOpt, ht, userAttr]

theorem handed_duckDb (E : CredEnv) (a : Kw) (c : Conn) (hm : mkConn E .duckDb a = .ok c) (k : String)
    (hk : k ∈ handed c.cls) (v : Yaml) (ht : v.truthy = true) (hnone : argNone a k = v) (hor : ∀ x, argOr a k x = v) :
    (if k ∈ truthyKeys c.cls ∧ truthyOpt (dictGet c.attrs k) = true then dictGet c.attrs k
      else (dictGet (baseKeys c.cls) k).bind (dictGet c.attrs)) = some v := by
  obtain ⟨hr, rfl⟩ := plain_ok hm
  simp only [handed, List.mem_cons, List.not_mem_nil, or_false] at hk
  rcases hk with rfl | rfl | rfl | rfl | rfl | rfl <;>
    simp [truthyKeys, baseKeys, dictGet, hnone, hor, truthyOpt, ht]

theorem handed_databricks (E : CredEnv) (a : Kw) (c : Conn) (hm : mkConn E .databricks a = .ok c) (k : String)
    (hk : k ∈ handed c.cls) (v : Yaml) (ht : v.truthy = true) (hnone : argNone a k = v) (hor : ∀ x, argOr a k x = v) :
    (if k ∈ truthyKeys c.cls ∧ truthyOpt (dictGet c.attrs k) = true then dictGet c.attrs k
      else (dictGet (baseKeys c.cls) k).bind (dictGet c.attrs)) = some v := by
  obtain ⟨hr, rfl⟩ := plain_ok hm
  simp only [handed, List.mem_cons, List.not_mem_nil, or_false] at hk
  rcases hk with rfl | rfl | rfl | rfl | rfl | rfl | rfl | rfl | rfl | rfl <;>
    first
      | (show some (argNone a _) = some v; rw [hnone])
      | (rw [if_pos ⟨(show _ ∈ truthyKeys .databricks by decide), (by show (argNone a _).truthy = true; rw [hnone]; exact ht)⟩]
         show some (argNone a _) = some v; rw [hnone])

theorem handed_trino (E : CredEnv) (a : Kw) (c : Conn) (hm : mkConn E .trino a = .ok c) (k : String)
    (hk : k ∈ handed c.cls) (v : Yaml) (ht : v.truthy = true) (hnone : argNone a k = v) (hor : ∀ x, argOr a k x = v) :
    (if k ∈ truthyKeys c.cls ∧ truthyOpt (dictGet c.attrs k) = true then dictGet c.attrs k
      else (dictGet (baseKeys c.cls) k).bind (dictGet c.attrs)) = some v := by
  obtain ⟨hr, rfl⟩ := plain_ok hm
  simp only [handed, List.mem_cons, List.not_mem_nil, or_false] at hk
  rcases hk with rfl | rfl | rfl | rfl | rfl | rfl <;>
    simp [truthyKeys, baseKeys, dictGet, hnone, hor, truthyOpt, ht]

/-- C66. **What is given is handed on.** An argument that the connector takes under the same name reaches it as it was given. -/
theorem C66_handed (E : CredEnv) (a : Kw) (c : Conn) (d : Kw) (h : loadOne E (.dict a) = .ok c) (hd : c.toDict = .ok d)
    (k : String) (hk : k ∈ handed c.cls) (hg : ConnGiven a k) : dictGet d k = dictGet a k := by
  obtain ⟨t, cls, -, -, hm⟩ := loadOne_dict_ok h
  obtain ⟨v, hv, ht⟩ := connGiven_some hg
  rw [toDict_get hd k, hv]
  have hnone : argNone a k = v := by unfold argNone argOr; rw [hv]; rfl
  have hor : ∀ x, argOr a k x = v := by intro x; unfold argOr; rw [hv]; rfl
  cases cls with
  | snowflake => exact handed_snowflake E a c hm k hk v ht hnone hor
  | redshift => exact handed_redshift E a c hm k hk v ht hnone hor
  | bigquery => exact handed_bigquery E a c hm k hk v ht hnone hor
  | postgres => exact handed_postgres E a c hm k hk v ht hnone hor
  | druid => exact handed_druid E a c hm k hk v ht hnone hor
  | sqlServer => exact handed_sqlServer E a c hm k hk v ht hnone hor
  | azureSynapse => exact handed_azureSynapse E a c hm k hk v ht hnone hor
  | duckDb => exact handed_duckDb E a c hm k hk v ht hnone hor
  | databricks => exact handed_databricks E a c hm k hk v ht hnone hor
  | trino => exact handed_trino E a c hm k hk v ht hnone hor

example : ∃ c d, loadOne cnEnv (.dict cnSnowflake) = .ok c ∧ c.toDict = .ok d ∧ "warehouse" ∈ handed c.cls ∧
    ConnGiven cnSnowflake "warehouse" := by
  have h1 : classLookup (upper "snowflake") = some .snowflake := by decide +kernel
  refine ⟨⟨.snowflake, [("type", .str "SNOWFLAKE"), ("name", .str "sf"), ("account", .str "acc"), ("username", .str "ann"),
    ("password", .str "pw"), ("role", .null), ("warehouse", .str "wh"), ("database", .null), ("schema", .str "main")]⟩,
    _, ?_, rfl, by decide, by unfold ConnGiven; decide⟩
  simp only [loadOne, cnSnowflake, dictGet]
  simp only [if_true]
  rw [h1]
  rfl

end ML
