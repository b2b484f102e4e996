import Verif.Connect.PropsRun
/-
C66: what is run in the warehouse, and where connections come from.
-/
set_option autoImplicit false
namespace ML
open Spec

/-- C66. **What is run.** A query that runs is run on the connection it was given, of one of the four types that can run queries, and
the query is the only text executed, but for one text before it on Snowflake and for nothing at all on Postgres when the
cursor is asked for. -/
theorem C66_run (render : Yaml → String) (sql : String) (c : Conn) (kw : Kw) (x : Execution)
    (h : runQuery render sql (some c) kw = .ok x) :
    x.conn = c ∧ x.timeout = (dictGet kw "timeout").getD (.int 180) ∧
    x.cursor = truthyOpt (dictGet kw "raw_cursor") ∧
    ∃ t, dictGet c.attrs "type" = some (.str t) ∧ t ∈ ["SNOWFLAKE", "BIGQUERY", "REDSHIFT", "POSTGRES"] ∧
      (t = "BIGQUERY" ∨ t = "REDSHIFT" → x.texts = [sql]) ∧
      (t = "POSTGRES" → x.texts = if truthyOpt (dictGet kw "raw_cursor") then [] else [sql]) ∧
      (t = "SNOWFLAKE" → ∃ pre, x.texts = pre ++ [sql] ∧ pre.length ≤ 1) := by
  have hraw : (argOr kw "raw_cursor" (.bool false)).truthy = truthyOpt (dictGet kw "raw_cursor") := by
    unfold argOr
    cases dictGet kw "raw_cursor" <;> rfl
  have hpre : ∀ b l, preQueries render c b = .ok l → l.length ≤ 1 := by
    intro b l hl
    unfold preQueries at hl
    cases h1 : c.attr "warehouse" with
    | error e => rw [h1] at hl; cases hl
    | ok w =>
      cases h2 : c.attr "database" with
      | error e => rw [h1, h2] at hl; cases hl
      | ok d =>
        cases h3 : c.attr "schema" with
        | error e => rw [h1, h2, h3] at hl; cases hl
        | ok s =>
          rw [h1, h2, h3] at hl
          simp only [bind, Except.bind] at hl
          split at hl
          · cases hl
          · split at hl
            · cases hl
            · split at hl
              · cases hl
              · split at hl
                · cases hl; simp
                · cases hl; simp
  unfold runQuery newRunner at h
  cases ht : c.attr "type" with
  | error e => simp only at h; rw [ht] at h; cases h
  | ok v =>
    simp only at h
    rw [ht] at h
    simp only [bind, Except.bind] at h
    cases v with
    | str t =>
      simp only at h
      by_cases hr : t ∈ runnableTypes
      · rw [if_pos hr] at h
        simp only [hraw] at h
        by_cases hs : t = "SNOWFLAKE"
        · rw [if_pos hs] at h
          have fin : ∀ r : Res (List String), (∀ l, r = .ok l → l.length ≤ 1) →
              r.bind (fun v => Except.ok (⟨c, v ++ [sql], argOr kw "timeout" (.int 180),
                    truthyOpt (dictGet kw "raw_cursor")⟩ : Execution)) = .ok x →
              x.conn = c ∧ x.timeout = (dictGet kw "timeout").getD (.int 180) ∧
                x.cursor = truthyOpt (dictGet kw "raw_cursor") ∧ ∃ pre, x.texts = pre ++ [sql] ∧ pre.length ≤ 1 := by
            intro r hr hx
            cases r with
            | error e => cases hx
            | ok l => cases hx; exact ⟨rfl, rfl, rfl, l, rfl, hr l rfl⟩
          have := (by
            split at h
            · exact fin (preQueries render c false) (hpre false) h
            · split at h
              · exact fin (preQueries render c true) (hpre true) h
              · exact fin (.ok []) (fun l hl => by cases hl; simp) h :
            x.conn = c ∧ x.timeout = (dictGet kw "timeout").getD (.int 180) ∧
                x.cursor = truthyOpt (dictGet kw "raw_cursor") ∧ ∃ pre, x.texts = pre ++ [sql] ∧ pre.length ≤ 1)
          obtain ⟨h1, h2, h3, pre, h4, h5⟩ := this
          refine ⟨h1, h2, h3, t, attr_ok.1 ht, hr, fun hh => ?_, fun hh => ?_, fun _ => ⟨pre, h4, h5⟩⟩
          · subst hs; exact absurd hh (by decide)
          · subst hs; exact absurd hh (by decide)
        · rw [if_neg hs] at h
          by_cases hp : t = "POSTGRES"
          · rw [if_pos hp] at h
            cases h
            exact ⟨rfl, rfl, rfl, t, attr_ok.1 ht, hr, fun hh => (by subst hp; exact absurd hh (by decide)), fun _ => rfl,
              fun hh => absurd hh hs⟩
          · rw [if_neg hp] at h
            cases h
            exact ⟨rfl, rfl, rfl, t, attr_ok.1 ht, hr, fun _ => rfl, fun hh => absurd hh hp, fun hh => absurd hh hs⟩
      · rw [if_neg hr] at h
        cases h
    | _ => cases h

/-- C66. What cannot be run: a query without a connection, and a query on one of the six types of connection that can be made but not
run on. -/
theorem C66_not_run (E : CredEnv) (render : Yaml → String) (sql : String) (kw : Kw) :
    runQuery render sql none kw = .error .attributeError ∧
    ∀ a c, loadOne E (.dict a) = .ok c → c.cls ∉ [ConnCls.snowflake, .bigquery, .redshift, .postgres] →
      runQuery render sql (some c) kw = .error .other := by
  refine ⟨rfl, fun a c h hc => ?_⟩
  obtain ⟨t, cls, -, -, hm⟩ := loadOne_dict_ok h
  obtain ⟨h1, -, -, h4⟩ := mkConn_name_type E cls a c hm
  unfold runQuery newRunner
  simp only
  rw [attr_ok.2 h4]
  simp only [bind, Except.bind]
  rw [if_neg (by
    rw [h1] at hc
    revert hc
    cases cls <;> decide)]

/-- A text attribute that may be missing. -/
def Spec.optText : Option String → Yaml
  | some s => .str s
  | none => .null

theorem optText_truthy {o : Option String} (h : ∀ x, o = some x → x ≠ "") : (optText o).truthy = o.isSome := by
  cases o with
  | none => rfl
  | some s => simpa [optText, Yaml.truthy] using h s rfl

theorem useIf_warehouse (render : Yaml → String) {w : Option String} (h : ∀ x, w = some x → x ≠ "") :
    useIf (optText w) true (.ok ("USE WAREHOUSE " ++ textOfValue render (optText w) ++ ";")) =
      .ok (w.elim "" (fun n => "USE WAREHOUSE " ++ n ++ ";")) := by
  unfold useIf
  rw [optText_truthy h]
  cases w <;> rfl

theorem useIf_upper (f : String → String) {d : Option String} (h : ∀ x, d = some x → x ≠ "") (b : Bool) :
    useIf (optText d) b ((upperValue (optText d)).map f) = .ok (if b then d.elim "" (fun n => f (upper n)) else "") := by
  unfold useIf
  rw [optText_truthy h]
  cases d <;> cases b <;> rfl

/-- C66. The text before a query on Snowflake names the warehouse, the database and the schema of the connection, in that order, those
that are there; only the warehouse when `run_pre_queries` is false, and nothing when `start_warehouse` is false as well.
The database and the schema are in capitals. -/
theorem C66_use (render : Yaml → String) (sql : String) (c : Conn) (kw : Kw) (w d s : Option String)
    (ht : dictGet c.attrs "type" = some (.str "SNOWFLAKE"))
    (hw : dictGet c.attrs "warehouse" = some (optText w)) (hd : dictGet c.attrs "database" = some (optText d))
    (hs : dictGet c.attrs "schema" = some (optText s))
    (nw : ∀ x, w = some x → x ≠ "") (nd : ∀ x, d = some x → x ≠ "") (ns : ∀ x, s = some x → x ≠ "") :
    ∃ x, runQuery render sql (some c) kw = .ok x ∧ x.texts =
      (let whole := (argOr kw "run_pre_queries" (.bool true)).truthy
       let start := whole || (argOr kw "start_warehouse" (.bool true)).truthy
       let use₁ := if start then w.elim "" (fun n => "USE WAREHOUSE " ++ n ++ ";") else ""
       let use₂ := if whole then d.elim "" (fun n => "USE DATABASE \"" ++ upper n ++ "\";") else ""
       let use₃ := if whole then s.elim "" (fun n => "USE SCHEMA \"" ++ upper n ++ "\";") else ""
       if use₁ ++ use₂ ++ use₃ = "" then [sql] else [use₁ ++ use₂ ++ use₃, sql]) := by
  have key : ∀ b : Bool, preQueries render c b = .ok (
      let use₁ := w.elim "" (fun n => "USE WAREHOUSE " ++ n ++ ";")
      let use₂ := if b then "" else d.elim "" (fun n => "USE DATABASE \"" ++ upper n ++ "\";")
      let use₃ := if b then "" else s.elim "" (fun n => "USE SCHEMA \"" ++ upper n ++ "\";")
      if use₁ ++ use₂ ++ use₃ = "" then [] else [use₁ ++ use₂ ++ use₃]) := by
    intro b
    unfold preQueries
    rw [attr_ok.2 hw, attr_ok.2 hd, attr_ok.2 hs]
    simp only [bind, Except.bind]
    rw [useIf_warehouse render nw, useIf_upper _ nd, useIf_upper _ ns]
    simp only
    cases b <;> simp only [Bool.not_true, Bool.not_false, Bool.false_eq_true, if_false, if_true] <;> split <;> rfl
  unfold runQuery newRunner
  simp only
  rw [attr_ok.2 ht]
  simp only [bind, Except.bind]
  rw [if_pos (by decide)]
  simp only [if_true]
  cases h1 : (argOr kw "run_pre_queries" (.bool true)).truthy with
  | true =>
    simp only [if_true, key false]
    refine ⟨_, rfl, ?_⟩
    simp only [Bool.true_or, if_true, Bool.false_eq_true, if_false]
    split <;> rfl
  | false =>
    simp only [Bool.false_eq_true, if_false, Bool.false_or]
    cases h2 : (argOr kw "start_warehouse" (.bool true)).truthy with
    | true =>
      simp only [if_true, key true]
      refine ⟨_, rfl, ?_⟩
      simp only
      split <;> rfl
    | false =>
      refine ⟨_, rfl, ?_⟩
      simp

/-- The connection of `cnSnowflake`. -/
def cnConn : Conn := ⟨.snowflake, [("type", .str "SNOWFLAKE"), ("name", .str "sf"), ("account", .str "acc"),
  ("username", .str "ann"), ("password", .str "pw"), ("role", .null), ("warehouse", .str "wh"), ("database", .null),
  ("schema", .str "main")]⟩

example : dictGet cnConn.attrs "type" = some (.str "SNOWFLAKE") ∧
    dictGet cnConn.attrs "warehouse" = some (optText (some "wh")) ∧ dictGet cnConn.attrs "database" = some (optText none) ∧
    dictGet cnConn.attrs "schema" = some (optText (some "main")) := ⟨rfl, rfl, rfl, rfl⟩

example : ∃ x, runQuery (fun _ => "") "SELECT 1;" (some cnConn) [] = .ok x ∧
    x.texts = ["USE WAREHOUSE wh;USE SCHEMA \"MAIN\";", "SELECT 1;"] := by
  obtain ⟨x, h1, h2⟩ := C66_use (fun _ => "") "SELECT 1;" cnConn [] (some "wh") none (some "main") rfl rfl rfl rfl
    (by simp) (by simp) (by simp)
  refine ⟨x, h1, ?_⟩
  rw [h2]
  decide +kernel

/-- C66. The connection of a dbt profile is the output the target names (the profile's own target when none is asked for), under the
name of the profile and with the directory of the profiles; there is none when the file, the profile, the target or
the output is missing. -/
theorem C66_profile (profiles : Option (List (String × Kw))) (dir name : String) (target : Option String) :
    (∀ raws, profileConnections profiles dir name target = .ok raws →
      ∃ ps profile outs out t a, profiles = some ps ∧ dictGet ps name = some profile ∧
        (target = some t ∨ (target = none ∧ dictGet profile "target" = some (.str t))) ∧
        dictGet profile "outputs" = some (.dict outs) ∧ dictGet outs t = some (.dict out) ∧ raws = [.dict a] ∧
        dictGet a "name" = some (.str name) ∧ dictGet a "directory" = some (.str dir) ∧
        ∀ k, k ≠ "name" → k ≠ "directory" → dictGet a k = dictGet out k) ∧
    (profiles = none → profileConnections profiles dir name target = .error .other) ∧
    (∀ ps, profiles = some ps → dictGet ps name = none → profileConnections profiles dir name target = .error .other) ∧
    (∀ ps profile outs t, profiles = some ps → dictGet ps name = some profile → target = some t →
      dictGet profile "outputs" = some (.dict outs) → dictGet outs t = none →
      profileConnections profiles dir name target = .error .other) := by
  refine ⟨?_, ?_, ?_, ?_⟩
  · intro raws h
    unfold profileConnections at h
    cases profiles with
    | none => cases h
    | some ps =>
      simp only at h
      cases hp : dictGet ps name with
      | none => rw [hp] at h; cases h
      | some profile =>
        rw [hp] at h
        simp only at h
        have fin : ∀ t, profileOutput profile dir name t = .ok raws →
            ∃ outs out a, dictGet profile "outputs" = some (.dict outs) ∧ dictGet outs t = some (.dict out) ∧ raws = [.dict a] ∧
              dictGet a "name" = some (.str name) ∧ dictGet a "directory" = some (.str dir) ∧
              ∀ k, k ≠ "name" → k ≠ "directory" → dictGet a k = dictGet out k := by
          intro t ht
          unfold profileOutput at ht
          split at ht
          · rename_i outs ho
            split at ht
            · rename_i d hd
              cases ht
              refine ⟨outs, d, _, ho, hd, rfl, ?_, ?_, ?_⟩
              · rw [dictGet_set]; simp
              · rw [dictGet_set, dictGet_set]; simp
              · intro k h1 h2
                rw [dictGet_set, dictGet_set, if_neg (Ne.symm h1), if_neg (Ne.symm h2)]
            · cases ht
            · cases ht
            · cases ht
          · cases ht
          · cases ht
        cases target with
        | some t =>
          obtain ⟨outs, out, a, h1, h2, h3, h4, h5, h6⟩ := fin t h
          exact ⟨ps, profile, outs, out, t, a, rfl, hp, Or.inl rfl, h1, h2, h3, h4, h5, h6⟩
        | none =>
          unfold profileTarget at h
          simp only at h
          cases htt : dictGet profile "target" with
          | none => rw [htt] at h; cases h
          | some v =>
            rw [htt] at h
            cases v with
            | str t =>
              obtain ⟨outs, out, a, h1, h2, h3, h4, h5, h6⟩ := fin t h
              exact ⟨ps, profile, outs, out, t, a, rfl, hp, Or.inr ⟨rfl, htt⟩, h1, h2, h3, h4, h5, h6⟩
            | _ => cases h
  · rintro rfl; rfl
  · rintro ps rfl h
    unfold profileConnections
    simp only
    rw [h]
  · rintro ps profile outs t rfl h1 rfl h2 h3
    unfold profileConnections
    simp only
    rw [h1]
    show profileOutput profile dir name t = _
    unfold profileOutput
    rw [h2]
    simp only
    rw [h3]

example : ∃ raws, profileConnections (some [("shop", [("target", .str "dev"),
      ("outputs", .dict [("dev", .dict [("type", .str "snowflake"), ("name", .str "x")])])])]) "/home/.dbt" "shop" none = .ok raws :=
  ⟨_, rfl⟩

/-- C66. The address of a Postgres database tells its parts apart when the user and the host have no `:`, the password no `@`
and the port no `/`. -/
theorem C66_url_partial (u p h o d u' p' h' o' d' : String) (hu : ':' ∉ u.toList) (hu' : ':' ∉ u'.toList)
    (hp : '@' ∉ p.toList) (hp' : '@' ∉ p'.toList) (hh : ':' ∉ h.toList) (hh' : ':' ∉ h'.toList)
    (ho : '/' ∉ o.toList) (ho' : '/' ∉ o'.toList)
    (e : postgresUrl u p h o d = postgresUrl u' p' h' o' d') : u = u' ∧ p = p' ∧ h = h' ∧ o = o' ∧ d = d' := by
  have cut : ∀ (c : Char) (a b a' b' : List Char), c ∉ a → c ∉ a' → a ++ c :: b = a' ++ c :: b' → a = a' ∧ b = b' := by
    intro c a
    induction a with
    | nil =>
      intro b a' b' _ h2 h3
      cases a' with
      | nil => exact ⟨rfl, by simpa using h3⟩
      | cons x a' =>
        simp only [List.nil_append, List.cons_append, List.cons.injEq] at h3
        exact absurd (by rw [h3.1]; simp) h2
    | cons y a ih =>
      intro b a' b' h1 h2 h3
      cases a' with
      | nil =>
        simp only [List.nil_append, List.cons_append, List.cons.injEq] at h3
        exact absurd (by rw [h3.1]; simp) h1
      | cons x a' =>
        simp only [List.cons_append, List.cons.injEq] at h3
        obtain ⟨e1, e2⟩ := ih b a' b' (fun hm => h1 (List.mem_cons_of_mem _ hm)) (fun hm => h2 (List.mem_cons_of_mem _ hm)) h3.2
        exact ⟨by rw [h3.1, e1], e2⟩
  have e1 : (postgresUrl u p h o d).toList = (postgresUrl u' p' h' o' d').toList := by rw [e]
  unfold postgresUrl at e1
  have c1 : (":" : String).toList = [':'] := rfl
  have c2 : ("@" : String).toList = ['@'] := rfl
  have c3 : ("/" : String).toList = ['/'] := rfl
  simp only [String.toList_append, c1, c2, c3, List.append_assoc, List.cons_append, List.nil_append,
    List.append_cancel_left_eq] at e1
  obtain ⟨h1, e2⟩ := cut _ _ _ _ _ hu hu' e1
  obtain ⟨h2, e3⟩ := cut _ _ _ _ _ hp hp' e2
  obtain ⟨h3, e4⟩ := cut _ _ _ _ _ hh hh' e3
  obtain ⟨h4, h5⟩ := cut _ _ _ _ _ ho ho' e4
  exact ⟨String.toList_inj.1 h1, String.toList_inj.1 h2, String.toList_inj.1 h3, String.toList_inj.1 h4, String.toList_inj.1 h5⟩

/-- C66. Without those conditions it does not: the password is written as it is, so that two different databases can have
the same address. -/
theorem C66_url_ambiguous : ∃ u p h o d u' p' h' o' d' : String,
    postgresUrl u p h o d = postgresUrl u' p' h' o' d' ∧ p ≠ p' ∧ h ≠ h' :=
  ⟨"u", "a@b", "c", "1", "d", "u", "a", "b@c", "1", "d", by decide +kernel, by decide +kernel, by decide +kernel⟩

end ML
