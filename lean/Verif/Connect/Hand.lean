import Verif.Connect.Lemmas
/-
Lemmas about the dictionaries of connections and how connections are made.
-/
set_option autoImplicit false
namespace ML
open Spec

theorem attr_ok {c : Conn} {k : String} {v : Yaml} : c.attr k = .ok v ↔ dictGet c.attrs k = some v := by
  unfold Conn.attr
  cases dictGet c.attrs k <;> simp

theorem attr_error {c : Conn} {k : String} {e : Err} :
    c.attr k = .error e ↔ dictGet c.attrs k = none ∧ e = .attributeError := by
  unfold Conn.attr
  cases dictGet c.attrs k <;> simp [eq_comm]

theorem readAttrs_get {c : Conn} : ∀ (l : List (String × String)) (d : Kw), readAttrs c l = .ok d →
    ∀ k, dictGet d k = (dictGet l k).bind (dictGet c.attrs) := by
  intro l
  induction l with
  | nil =>
    intro d h k
    cases h
    rfl
  | cons p l ih =>
    obtain ⟨i, at_⟩ := p
    intro d h k
    simp only [readAttrs] at h
    cases hv : c.attr at_ with
    | error e => rw [hv] at h; cases h
    | ok v =>
      rw [hv] at h
      change (readAttrs c l).bind _ = _ at h
      cases hl : readAttrs c l with
      | error e => rw [hl] at h; cases h
      | ok d1 =>
        rw [hl] at h
        cases h
        simp only [dictGet]
        split
        · rw [Option.bind_some]; exact (attr_ok.1 hv).symm
        · exact ih d1 hl k

theorem readAttrs_ok {c : Conn} : ∀ l : List (String × String),
    (∀ p ∈ l, (dictGet c.attrs p.2).isSome = true) → ∃ d, readAttrs c l = .ok d := by
  intro l
  induction l with
  | nil => intro _; exact ⟨[], rfl⟩
  | cons p l ih =>
    obtain ⟨i, at_⟩ := p
    intro h
    obtain ⟨d, hd⟩ := ih (fun p hp => h p (List.mem_cons_of_mem _ hp))
    obtain ⟨v, hv⟩ := Option.isSome_iff_exists.1 (h (i, at_) (by simp))
    refine ⟨(i, v) :: d, ?_⟩
    simp only [readAttrs]
    rw [attr_ok.2 hv, hd]
    rfl

theorem addTruthy_get {c : Conn} : ∀ (ks : List String) (base d : Kw), addTruthy c base ks = .ok d →
    ∀ k, dictGet d k = if k ∈ ks ∧ truthyOpt (dictGet c.attrs k) = true then dictGet c.attrs k else dictGet base k := by
  intro ks
  induction ks with
  | nil =>
    intro base d h k
    cases h
    simp
  | cons i ks ih =>
    intro base d h k
    simp only [addTruthy] at h
    cases hv : c.attr i with
    | error e => rw [hv] at h; cases h
    | ok v =>
      rw [hv] at h
      have hg := attr_ok.1 hv
      have h : (if v.truthy = true then addTruthy c (dictSet base i v) ks else addTruthy c base ks) = .ok d := h
      by_cases ht : v.truthy = true
      · rw [if_pos ht] at h
        rw [ih _ _ h k, dictGet_set]
        by_cases hik : i = k
        · subst hik
          simp [hg, truthyOpt, ht]
        · have : (k ∈ i :: ks) = (k ∈ ks) := by simp [Ne.symm hik]
          simp only [this, if_neg hik]
      · rw [if_neg ht] at h
        rw [ih _ _ h k]
        by_cases hik : i = k
        · subst hik
          simp [hg, truthyOpt, ht]
        · have : (k ∈ i :: ks) = (k ∈ ks) := by simp [Ne.symm hik]
          simp only [this]

theorem addTruthy_ok {c : Conn} : ∀ (ks : List String) (base : Kw),
    (∀ k ∈ ks, (dictGet c.attrs k).isSome = true) → ∃ d, addTruthy c base ks = .ok d := by
  intro ks
  induction ks with
  | nil => intro base _; exact ⟨base, rfl⟩
  | cons i ks ih =>
    intro base h
    obtain ⟨v, hv⟩ := Option.isSome_iff_exists.1 (h i (by simp))
    simp only [addTruthy]
    rw [attr_ok.2 hv]
    show ∃ d, (if v.truthy = true then addTruthy c (dictSet base i v) ks else addTruthy c base ks) = .ok d
    split
    · exact ih _ (fun k hk => h k (List.mem_cons_of_mem _ hk))
    · exact ih _ (fun k hk => h k (List.mem_cons_of_mem _ hk))

theorem addTruthy_missing {c : Conn} : ∀ (ks : List String) (base : Kw), (∃ k ∈ ks, dictGet c.attrs k = none) →
    addTruthy c base ks = .error .attributeError := by
  intro ks
  induction ks with
  | nil => intro base h; simp at h
  | cons i ks ih =>
    intro base h
    simp only [addTruthy]
    cases hv : dictGet c.attrs i with
    | none => rw [attr_error.2 ⟨hv, rfl⟩]; rfl
    | some v =>
      rw [attr_ok.2 hv]
      have h' : ∃ k ∈ ks, dictGet c.attrs k = none := by
        obtain ⟨k, hk, hn⟩ := h
        rcases List.mem_cons.1 hk with rfl | hk
        · rw [hv] at hn; cases hn
        · exact ⟨k, hk, hn⟩
      show (if v.truthy = true then addTruthy c (dictSet base i v) ks else addTruthy c base ks) = _
      split
      · exact ih _ h'
      · exact ih _ h'

theorem toDict_get {c : Conn} {d : Kw} (h : c.toDict = .ok d) (k : String) :
    dictGet d k = if k ∈ truthyKeys c.cls ∧ truthyOpt (dictGet c.attrs k) = true then dictGet c.attrs k
      else (dictGet (baseKeys c.cls) k).bind (dictGet c.attrs) := by
  unfold Conn.toDict at h
  cases hr : readAttrs c (baseKeys c.cls) with
  | error e => rw [hr] at h; cases h
  | ok base =>
    rw [hr] at h
    rw [addTruthy_get _ _ _ h k, readAttrs_get _ _ hr k]

theorem toDict_ok {c : Conn} (h1 : ∀ p ∈ baseKeys c.cls, (dictGet c.attrs p.2).isSome = true)
    (h2 : ∀ k ∈ truthyKeys c.cls, (dictGet c.attrs k).isSome = true) : ∃ d, c.toDict = .ok d := by
  unfold Conn.toDict
  obtain ⟨b, hb⟩ := readAttrs_ok _ h1
  rw [hb]
  exact addTruthy_ok _ b h2

theorem toDict_missing {c : Conn} (h1 : ∀ p ∈ baseKeys c.cls, (dictGet c.attrs p.2).isSome = true)
    (h2 : ∃ k ∈ truthyKeys c.cls, dictGet c.attrs k = none) : c.toDict = .error .attributeError := by
  unfold Conn.toDict
  obtain ⟨b, hb⟩ := readAttrs_ok _ h1
  rw [hb]
  exact addTruthy_missing _ b h2

theorem printable_eq {c : Conn} {d : Kw} {n : Yaml} (h : c.toDict = .ok d) (hn : dictGet c.attrs "name" = some n) :
    c.printable = if (dictGet d (secretKey c.cls)).isSome then
      .ok (pickKeys (dictSet (d.filter (fun p => p.1 ≠ secretKey c.cls)) "name" n) (sortOrder c.cls))
      else .error .keyError := by
  unfold Conn.printable
  rw [h]
  show (popKey d (secretKey c.cls)).bind _ = _
  unfold popKey
  split
  · show (c.attr "name").bind _ = _
    rw [attr_ok.2 hn]
    rfl
  · rfl

theorem truthy_argNone (a : Kw) (k : String) : (argNone a k).truthy = truthyOpt (dictGet a k) := by
  unfold argNone argOr
  cases dictGet a k <;> rfl

theorem needArgs_ok {a : Kw} : ∀ {ks : List String}, needArgs a ks = .ok () ↔ ∀ k ∈ ks, (dictGet a k).isSome = true := by
  intro ks
  induction ks with
  | nil => simp [needArgs]
  | cons k ks ih =>
    simp only [needArgs]
    split
    · rename_i h; rw [ih]; simp [h]
    · rename_i h; simp [h]

theorem needArgs_error {a : Kw} : ∀ {ks : List String} {e : Err}, needArgs a ks = .error e →
    e = .typeError ∧ ∃ k ∈ ks, dictGet a k = none := by
  intro ks
  induction ks with
  | nil => intro e h; cases h
  | cons k ks ih =>
    intro e h
    simp only [needArgs] at h
    split at h
    · obtain ⟨h1, j, hj, hn⟩ := ih h
      exact ⟨h1, j, List.mem_cons_of_mem _ hj, hn⟩
    · rename_i hk
      cases h
      exact ⟨rfl, k, by simp, by simpa using hk⟩

theorem pickUser_spec (a : Kw) :
    (ConnGiven a "user" ∧ ConnGiven a "username" ∧ pickUser a = .error .argument) ∨
    (¬ ConnGiven a "user" ∧ ¬ ConnGiven a "username" ∧ pickUser a = .ok none) ∨
    ∃ u, UserIs a u ∧ u.truthy = true ∧ pickUser a = .ok (some u) := by
  unfold pickUser
  simp only [truthy_argNone]
  by_cases h1 : truthyOpt (dictGet a "user") = true
  · by_cases h2 : truthyOpt (dictGet a "username") = true
    · exact Or.inl ⟨h1, h2, by simp [h1, h2]⟩
    · refine Or.inr (Or.inr ?_)
      cases hu : dictGet a "user" with
      | none => rw [hu] at h1; simp [truthyOpt] at h1
      | some u =>
        refine ⟨u, Or.inl ⟨h1, h2, hu⟩, by rw [hu] at h1; exact h1, ?_⟩
        rw [hu] at h1
        simp [h1, h2, argNone, argOr, hu]
  · by_cases h2 : truthyOpt (dictGet a "username") = true
    · refine Or.inr (Or.inr ?_)
      cases hu : dictGet a "username" with
      | none => rw [hu] at h2; simp [truthyOpt] at h2
      | some u =>
        refine ⟨u, Or.inr ⟨h2, h1, hu⟩, by rw [hu] at h2; exact h2, ?_⟩
        rw [hu] at h2
        simp [h1, h2, argNone, argOr, hu]
    · exact Or.inr (Or.inl ⟨h1, h2, by simp [h1, h2]⟩)

theorem mkSnowflake_ok {a : Kw} {c : Conn} (h : mkSnowflake a = .ok c) :
    (∀ k ∈ required .snowflake, (dictGet a k).isSome = true) ∧ ∃ u, UserIs a u ∧ u.truthy = true ∧
    c = ⟨.snowflake, [("type", .str "SNOWFLAKE"), ("name", argNone a "name"), ("account", argNone a "account"),
      ("username", u), ("password", argNone a "password"), ("role", argNone a "role"),
      ("warehouse", argNone a "warehouse"), ("database", argNone a "database"), ("schema", argNone a "schema")]⟩ := by
  unfold mkSnowflake at h
  cases hn : needArgs a ["name", "account", "password"] with
  | error e => rw [hn] at h; cases h
  | ok _ =>
    rw [hn] at h
    refine ⟨needArgs_ok.1 hn, ?_⟩
    rcases pickUser_spec a with ⟨_, _, hp⟩ | ⟨_, _, hp⟩ | ⟨u, hu, ht, hp⟩
    · rw [hp] at h; cases h
    · rw [hp] at h; cases h
    · rw [hp] at h
      cases h
      exact ⟨u, hu, ht, rfl⟩

theorem mkDruid_ok {a : Kw} {c : Conn} (h : mkDruid a = .ok c) :
    (∀ k ∈ required .druid, (dictGet a k).isSome = true) ∧ ∃ o, pickUser a = .ok o ∧
    c = ⟨.druid, [("type", .str "DRUID"), ("name", argNone a "name"), ("host", argNone a "host"),
    ("port", argOr a "port" (.int 8082))] ++ userAttr o ++
    [("password", argNone a "password"), ("path", argOr a "path" (.str "/druid/v2/sql/")),
    ("scheme", argOr a "scheme" (.str "http")), ("database", .null), ("schema", .null)]⟩ := by
  unfold mkDruid at h
  cases hn : needArgs a ["name", "host"] with
  | error e => rw [hn] at h; cases h
  | ok _ =>
    rw [hn] at h
    refine ⟨needArgs_ok.1 hn, ?_⟩
    change (pickUser a).bind _ = _ at h
    cases hp : pickUser a with
    | error e => rw [hp] at h; cases h
    | ok o =>
      rw [hp] at h
      cases h
      exact ⟨o, rfl, rfl⟩

theorem mkSqlServer_ok {cls : ConnCls} {a : Kw} {c : Conn} (h : mkSqlServer cls a = .ok c) :
    (∀ k ∈ required .sqlServer, (dictGet a k).isSome = true) ∧ ∃ o, pickUser a = .ok o ∧
    c = ⟨cls, [("type", .str "SQL_SERVER"), ("name", argNone a "name"), ("host", argNone a "host"),
    ("port", argOr a "port" (.int 1433))] ++ userAttr o ++
    [("password", argNone a "password"), ("database", argNone a "database"), ("schema", argNone a "schema")]⟩ := by
  unfold mkSqlServer at h
  cases hn : needArgs a ["name", "host"] with
  | error e => rw [hn] at h; cases h
  | ok _ =>
    rw [hn] at h
    refine ⟨needArgs_ok.1 hn, ?_⟩
    change (pickUser a).bind _ = _ at h
    cases hp : pickUser a with
    | error e => rw [hp] at h; cases h
    | ok o =>
      rw [hp] at h
      cases h
      exact ⟨o, rfl, rfl⟩

theorem mkBigQuery_ok {E : CredEnv} {a : Kw} {c : Conn} (h : mkBigQuery E a = .ok c) :
    (dictGet a "name").isSome = true ∧ ∃ creds pid, readCreds E a (credsToUse a) = .ok creds ∧ projectId creds = .ok pid ∧
    c = ⟨.bigquery, [("type", .str "BIGQUERY"), ("name", argNone a "name"), ("schema", argNone a "schema"),
    ("credentials", creds), ("project_id", pid), ("database", pid)]⟩ := by
  unfold mkBigQuery at h
  cases hn : needArgs a ["name"] with
  | error e => rw [hn] at h; cases h
  | ok _ =>
    rw [hn] at h
    refine ⟨needArgs_ok.1 hn "name" (by simp), ?_⟩
    change (readCreds E a (credsToUse a)).bind _ = _ at h
    cases hp : readCreds E a (credsToUse a) with
    | error e => rw [hp] at h; cases h
    | ok creds =>
      rw [hp] at h
      change (projectId creds).bind _ = _ at h
      cases hq : projectId creds with
      | error e => rw [hq] at h; cases h
      | ok pid =>
        rw [hq] at h
        cases h
        exact ⟨creds, pid, rfl, hq, rfl⟩

/-- The constructors that only need their arguments. -/
theorem plain_ok {a : Kw} {ks : List String} {c c' : Conn} (h : ((needArgs a ks).bind fun _ => Except.ok c) = .ok c') :
    (∀ k ∈ ks, (dictGet a k).isSome = true) ∧ c' = c := by
  cases hn : needArgs a ks with
  | error e => rw [hn] at h; cases h
  | ok _ =>
    rw [hn] at h
    cases h
    exact ⟨needArgs_ok.1 hn, rfl⟩

theorem classLookup_some {k : String} {cls : ConnCls} : classLookup k = some cls ↔ cls.key = k := by
  constructor
  · intro h
    have h1 := List.find?_some h
    exact of_decide_eq_true h1
  · rintro rfl
    cases cls <;> decide +kernel

end ML
