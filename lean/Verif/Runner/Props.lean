import Verif.Runner.Spec
import Verif.Connect.PropsExec
/-
C88: what a run of a query does with the warehouse's driver, whatever of it fails.
-/
set_option autoImplicit false
namespace ML
open Spec

theorem openAfter_nil : ¬ OpenAfter [] := by rintro ⟨b, _, _, h, -⟩; cases b <;> simp at h

theorem openAfter_cons (c : DriverCall) (o : Option Err) (tr : DriverTrace) :
    OpenAfter ((c, o) :: tr) ↔ OpenAfter tr ∨ (o = none ∧ (∃ a, c = .connect a) ∧ (DriverCall.close, none) ∉ tr) := by
  constructor
  · rintro ⟨b, a, l, h, hl⟩
    cases b with
    | nil => simp only [List.nil_append, List.cons.injEq, Prod.mk.injEq] at h; obtain ⟨⟨rfl, rfl⟩, rfl⟩ := h; exact .inr ⟨rfl, ⟨a, rfl⟩, hl⟩
    | cons x b => simp only [List.cons_append, List.cons.injEq] at h; exact .inl ⟨b, a, l, h.2, hl⟩
  · rintro (⟨b, a, l, rfl, hl⟩ | ⟨rfl, ⟨a, rfl⟩, hl⟩)
    · exact ⟨_ :: b, a, l, rfl, hl⟩
    · exact ⟨[], a, tr, rfl, hl⟩

/-- At most one text comes before the query. -/
theorem preQueries_short {render : Yaml → String} {c : Conn} {b : Bool} {l : List String} (hl : preQueries render c b = .ok l) : l = [] ∨ ∃ t, l = [t] := by
  unfold preQueries at hl
  cases h1 : c.attr "warehouse" with
  | error e => rw [h1] at hl; cases hl
  | ok w =>
    cases h2 : c.attr "database" with
    | error e => rw [h1, h2] at hl; cases hl
    | ok d =>
      cases h3 : c.attr "schema" with
      | error e => rw [h1, h2, h3] at hl; cases hl
      | ok s =>
        rw [h1, h2, h3] at hl
        simp only [bind, Except.bind] at hl
        split at hl
        · cases hl
        · split at hl
          · cases hl
          · split at hl
            · cases hl
            · split at hl
              · cases hl; exact .inl rfl
              · cases hl; exact .inr ⟨_, rfl⟩

/-- The types of connection that can run queries. -/
theorem newRunner_ok {c c' : Conn} {t : String} (h : newRunner (some c) = .ok (c', t)) : c' = c ∧ dictGet c.attrs "type" = some (.str t) ∧ t ∈ runnableTypes := by
  unfold newRunner Conn.attr at h
  simp only at h
  cases ht : dictGet c.attrs "type" with
  | none => rw [ht] at h; cases h
  | some v =>
    rw [ht] at h
    cases v with
    | str s =>
      simp only [bind, Except.bind] at h
      by_cases hs : s ∈ runnableTypes
      · rw [if_pos hs] at h; cases h; exact ⟨rfl, rfl, hs⟩
      · rw [if_neg hs] at h; cases h
    | _ => cases h

/-- The first calls of a list, all done, and then what was raised. -/
theorem drive_cases (fails : ℕ → Option Err) (n : ℕ) (l : List (Res DriverCall)) :
    (∃ done : List DriverCall, l = done.map .ok ∧ drive fails n l = (done.map (·, none), none)) ∨
    (∃ (done : List DriverCall) (rest : List (Res DriverCall)) (e : Err), l = done.map .ok ++ .error e :: rest ∧ drive fails n l = (done.map (·, none), some e)) ∨
    ∃ (done : List DriverCall) (c : DriverCall) (rest : List (Res DriverCall)) (e : Err), l = done.map .ok ++ .ok c :: rest ∧
      drive fails n l = (done.map (·, none) ++ [(c, some e)], some e) := by
  induction l generalizing n with
  | nil => exact .inl ⟨[], rfl, rfl⟩
  | cons x l ih =>
    cases x with
    | error e => exact .inr (.inl ⟨[], l, e, rfl, rfl⟩)
    | ok c =>
      cases hf : fails n with
      | some e => exact .inr (.inr ⟨[], c, l, e, rfl, by simp [drive, hf]⟩)
      | none =>
        rcases ih (n + 1) with ⟨d, h1, h2⟩ | ⟨d, r, e, h1, h2⟩ | ⟨d, c', r, e, h1, h2⟩
        · exact .inl ⟨c :: d, by simp [h1], by simp [drive, hf, h2]⟩
        · exact .inr (.inl ⟨c :: d, r, e, by simp [h1], by simp [drive, hf, h2]⟩)
        · exact .inr (.inr ⟨c :: d, c', r, e, by simp [h1], by simp [drive, hf, h2]⟩)

/-- The texts among calls (for the proofs; it models no file in /repo). -/
def textsOf (l : List DriverCall) : List String := sentTexts (l.map (·, none))

theorem sentTexts_map (l : List DriverCall) (f : DriverCall → Option Err) : sentTexts (l.map fun c => (c, f c)) = textsOf l := by
  simp only [textsOf, sentTexts, List.filterMap_map]; rfl

theorem sentTexts_append (a b : DriverTrace) : sentTexts (a ++ b) = sentTexts a ++ sentTexts b := List.filterMap_append ..
theorem textsOf_append (a b : List DriverCall) : textsOf (a ++ b) = textsOf a ++ textsOf b := by simp [textsOf, sentTexts_append]

/-- What a run can do: the login cannot be made, connecting is refused, the text before the query cannot be made, a later call raises, or none does (for the proofs; it
models no file in /repo). -/
inductive RunTrace (login : Res Kw) (badText : Prop) (mid last : List DriverCall) : DriverTrace → Option Err → Prop
  | noLogin (e : Err) : login = .error e → RunTrace login badText mid last [] (some e)
  | refused (args : Kw) (e : Err) : login = .ok args → RunTrace login badText mid last [(.connect args, some e)] (some e)
  | stopped (args : Kw) (e : Err) : login = .ok args → badText → RunTrace login badText mid last [(.connect args, none)] (some e)
  | raised (args : Kw) (done : List DriverCall) (c : DriverCall) (rest : List DriverCall) (e : Err) : login = .ok args → ¬ badText → mid ++ last = done ++ c :: rest →
      RunTrace login badText mid last ((.connect args, none) :: (done.map (·, none) ++ [(c, some e)])) (some e)
  | returned (args : Kw) : login = .ok args → ¬ badText → RunTrace login badText mid last ((.connect args, none) :: (mid ++ last).map (·, none)) none

theorem map_ok_inj {a b : List DriverCall} {x : Err} {r : List (Res DriverCall)} : a.map Except.ok ≠ b.map Except.ok ++ Except.error x :: r := by
  intro h
  have : (Except.error x : Res DriverCall) ∈ a.map Except.ok := by rw [h]; simp
  simp at this

theorem runTrace_good (fails : ℕ → Option Err) (login : Res Kw) (badText : Prop) (mid last : List DriverCall) (hb : ¬ badText) :
    RunTrace login badText mid last (drive fails 0 (login.map .connect :: (mid ++ last).map .ok)).1 (drive fails 0 (login.map .connect :: (mid ++ last).map .ok)).2 := by
  cases hl : login with
  | error e => exact .noLogin e rfl
  | ok args =>
    cases hf : fails 0 with
    | some e => simp only [Except.map, drive, hf]; exact .refused args e rfl
    | none =>
      simp only [Except.map, drive, hf]
      rcases drive_cases fails (0 + 1) ((mid ++ last).map .ok) with ⟨d, h1, h2⟩ | ⟨d, r, e, h1, h2⟩ | ⟨d, c, r, e, h1, h2⟩
      · have : d = mid ++ last := (List.map_injective_iff.2 (fun a b h => by injection h) h1).symm
        subst this; rw [h2]; exact .returned args rfl hb
      · exact absurd h1 map_ok_inj
      · rw [h2]
        obtain ⟨a, b, h3, h4, h5⟩ := List.map_eq_append_iff.1 h1
        obtain ⟨c', b', rfl, h6, -⟩ := List.map_eq_cons_iff.1 h5
        injection h6 with h6; subst h6
        have : a = d := List.map_injective_iff.2 (fun a b h => by injection h) h4
        subst this
        exact .raised args a c' b' e rfl hb h3

theorem runTrace_bad (fails : ℕ → Option Err) (login : Res Kw) (badText : Prop) (mid last : List DriverCall) (e : Err) (rest : List (Res DriverCall)) (hb : badText) :
    RunTrace login badText mid last (drive fails 0 (login.map .connect :: .error e :: rest)).1 (drive fails 0 (login.map .connect :: .error e :: rest)).2 := by
  cases hl : login with
  | error e => exact .noLogin e rfl
  | ok args =>
    cases hf : fails 0 with
    | some e => simp only [Except.map, drive, hf]; exact .refused args e rfl
    | none => simp only [Except.map, drive, hf]; exact .stopped args e rfl hb

/-- How a run connects, by the type of the connection (for the proofs; it models no file in /repo). -/
def loginOf (render : Yaml → String) (pyInt : Yaml → Res ℤ) (c : Conn) (t : String) (timeout : Yaml) : Res Kw :=
  if t = "SNOWFLAKE" then snowflakeLogin c else if t = "POSTGRES" then postgresLogin render pyInt c timeout else if t = "REDSHIFT" then redshiftLogin c timeout else bigqueryLogin c

/-- The shape of a run on Snowflake, with the text before the query. -/
theorem snowflake_shape (fails : ℕ → Option Err) (login : Res Kw) (sql : String) (c : Conn) (timeout : Yaml) (raw : Bool) (before : Res (List String)) (rq : Res Execution)
    (hrq : rq = match before with
      | .error e => .error e
      | .ok l => .ok ⟨c, l ++ [sql], timeout, raw⟩)
    (hl : ∀ l, before = .ok l → l = [] ∨ ∃ t, l = [t]) :
    ∃ mid last r, RunTrace login (∃ e, rq = .error e) mid last
        (drive fails 0 (login.map .connect :: ((executions before ++ [.ok .cursor, .ok (.execute sql (some timeout))]) ++ .ok .close :: if raw then [] else [.ok .fetch]))).1 r ∧
      (match (drive fails 0 (login.map .connect :: ((executions before ++ [.ok .cursor, .ok (.execute sql (some timeout))]) ++ .ok .close :: if raw then [] else [.ok .fetch]))).2 with
        | some e => (.error e : Res Returned)
        | none => .ok (if raw then .cursor else .rows)) = (match r with
        | some e => .error e
        | none => .ok (if raw then .cursor else .rows)) ∧
      (∀ x, rq = .ok x → textsOf mid = x.texts) ∧ (∀ x ∈ mid, x = .cursor ∨ (x = .fetch ∧ "SNOWFLAKE" = "POSTGRES") ∨ ∃ s o, x = .execute s o) ∧
      (last = [] ∧ "SNOWFLAKE" = "POSTGRES" ∧ raw = true ∨ ("SNOWFLAKE" = "POSTGRES" → raw = false) ∧ (last = [.close] ∨ last = [.close, .fetch] ∧ "SNOWFLAKE" ≠ "POSTGRES")) ∧
      (∀ s o, .execute s (some o) ∈ mid → o = timeout) ∧
      (True ∨ "SNOWFLAKE" = "BIGQUERY" → .execute sql (some timeout) ∈ mid ∨ ∃ e, rq = .error e) := by
  cases before with
  | error e =>
    subst hrq
    refine ⟨[], [.close], _, runTrace_bad fails _ _ _ _ e _ ⟨e, rfl⟩, rfl, ?_, ?_, ?_, ?_, ?_⟩ <;> simp
  | ok l =>
    subst hrq
    have hmid : (executions (.ok l) ++ [.ok .cursor, .ok (.execute sql (some timeout))]) ++ (.ok .close :: if raw then [] else [.ok .fetch]) =
        ((l.map (fun s => DriverCall.execute s none) ++ [DriverCall.cursor, DriverCall.execute sql (some timeout)]) ++ (DriverCall.close :: if raw then [] else [DriverCall.fetch])).map Except.ok := by
      cases raw <;> simp [executions]
    rw [hmid]
    refine ⟨_, _, _, runTrace_good fails _ _ _ _ (by simp), rfl, ?_, ?_, ?_, ?_, ?_⟩
    · rintro x hx; cases hx
      rcases hl l rfl with rfl | ⟨s, rfl⟩ <;> rfl
    · intro x hx; simp only [List.mem_append, List.mem_map, List.mem_cons, List.not_mem_nil, or_false] at hx
      rcases hx with ⟨s, -, rfl⟩ | rfl | rfl
      · exact .inr (.inr ⟨_, _, rfl⟩)
      · exact .inl rfl
      · exact .inr (.inr ⟨_, _, rfl⟩)
    · cases raw <;> simp
    · intro s o; simp
    · simp

/-- The shape of a run. -/
theorem run_shape (render : Yaml → String) (pyInt : Yaml → Res ℤ) (fails : ℕ → Option Err) (sql : String) (c : Conn) (kw : Kw) (t : String)
    (h : newRunner (some c) = .ok (c, t)) :
    ∃ mid last r, RunTrace (loginOf render pyInt c t (argOr kw "timeout" (.int 180))) (∃ e, runQuery render sql (some c) kw = .error e) mid last
        (runDriven render pyInt fails sql (some c) kw).1 r ∧
      (runDriven render pyInt fails sql (some c) kw).2 = (match r with
        | some e => .error e
        | none => .ok (if (argOr kw "raw_cursor" (.bool false)).truthy then .cursor else .rows)) ∧
      (∀ x, runQuery render sql (some c) kw = .ok x → textsOf mid = x.texts) ∧ (∀ x ∈ mid, x = .cursor ∨ (x = .fetch ∧ t = "POSTGRES") ∨ ∃ s o, x = .execute s o) ∧
      (last = [] ∧ t = "POSTGRES" ∧ (argOr kw "raw_cursor" (.bool false)).truthy = true ∨ (t = "POSTGRES" → (argOr kw "raw_cursor" (.bool false)).truthy = false) ∧ (last = [.close] ∨ last = [.close, .fetch] ∧ t ≠ "POSTGRES")) ∧
      (∀ s o, .execute s (some o) ∈ mid → o = argOr kw "timeout" (.int 180)) ∧
      (t = "SNOWFLAKE" ∨ t = "BIGQUERY" → .execute sql (some (argOr kw "timeout" (.int 180))) ∈ mid ∨ ∃ e, runQuery render sql (some c) kw = .error e) := by
  unfold runDriven runQuery
  simp only [h, bind, Except.bind]
  obtain ⟨-, -, ht⟩ := newRunner_ok h
  generalize argOr kw "timeout" (.int 180) = timeout
  generalize (argOr kw "raw_cursor" (.bool false)).truthy = raw
  generalize (argOr kw "run_pre_queries" (.bool true)).truthy = pre
  generalize (argOr kw "start_warehouse" (.bool true)).truthy = start
  have ht' : t = "SNOWFLAKE" ∨ t = "BIGQUERY" ∨ t = "REDSHIFT" ∨ t = "POSTGRES" := by simpa [runnableTypes] using ht
  rcases ht' with rfl | rfl | rfl | rfl
  · -- Snowflake
    simp only [if_true, driverCalls, snowflakeCalls, loginOf]
    cases pre with
    | true =>
      simp only [if_true]
      refine snowflake_shape fails _ sql c timeout raw _ _ ?_ (fun l hl => preQueries_short (b := false) hl)
      cases preQueries render c false <;> rfl
    | false =>
      cases start with
      | true =>
        simp only [if_true, Bool.false_eq_true, if_false]
        refine snowflake_shape fails _ sql c timeout raw _ _ ?_ (fun l hl => preQueries_short (b := true) hl)
        cases preQueries render c true <;> rfl
      | false =>
        simp only [Bool.false_eq_true, if_false]
        exact snowflake_shape fails _ sql c timeout raw (.ok []) _ rfl (fun l hl => by cases hl; exact .inl rfl)
  · -- BigQuery
    have hmid : bigqueryCalls sql c timeout raw = (bigqueryLogin c).map .connect :: ([DriverCall.execute sql (some timeout)] ++ (DriverCall.close :: if raw then [] else [DriverCall.fetch])).map Except.ok := by
      cases raw <;> rfl
    simp only [driverCalls, loginOf, hmid]
    refine ⟨_, _, _, runTrace_good fails _ _ _ _ (by simp), rfl, ?_, ?_, ?_, ?_, ?_⟩
    · rintro x hx; cases hx; rfl
    · intro x hx; simp only [List.mem_singleton] at hx; subst hx; exact .inr (.inr ⟨_, _, rfl⟩)
    · cases raw <;> simp
    · intro s o; simp
    · simp
  · -- Redshift
    have hmid : redshiftCalls sql c timeout raw = (redshiftLogin c timeout).map .connect :: ([DriverCall.cursor, .execute sql none] ++ (DriverCall.close :: if raw then [] else [DriverCall.fetch])).map Except.ok := by
      cases raw <;> rfl
    simp only [driverCalls, loginOf, hmid]
    refine ⟨_, _, _, runTrace_good fails _ _ _ _ (by simp), rfl, ?_, ?_, ?_, ?_, ?_⟩
    · rintro x hx; cases hx; rfl
    · intro x hx; simp only [List.mem_cons, List.not_mem_nil, or_false] at hx; rcases hx with rfl | rfl
      · exact .inl rfl
      · exact .inr (.inr ⟨_, _, rfl⟩)
    · cases raw <;> simp
    · intro s o; simp
    · simp
  · -- Postgres
    have hmid : postgresCalls render pyInt sql c timeout raw = (postgresLogin render pyInt c timeout).map .connect ::
        ((if raw then [DriverCall.cursor] else [DriverCall.execute sql none, DriverCall.fetch]) ++ (if raw then [] else [DriverCall.close])).map Except.ok := by
      cases raw <;> rfl
    simp only [driverCalls, loginOf, hmid]
    refine ⟨_, _, _, runTrace_good fails _ _ _ _ (by simp), rfl, ?_, ?_, ?_, ?_, ?_⟩
    · rintro x hx; cases hx; cases raw <;> rfl
    · cases raw <;> simp
    · cases raw <;> simp
    · intro s o; cases raw <;> simp
    · simp

theorem openAfter_run {args : Kw} {X : List DriverCall} {tail : DriverTrace} (hX : ∀ x ∈ X, ∀ a, x ≠ .connect a) (ht : ∀ x ∈ tail, x.2 ≠ none) :
    OpenAfter ((.connect args, none) :: (X.map (·, none) ++ tail)) ↔ DriverCall.close ∉ X := by
  rw [openAfter_cons]
  have h0 : ¬ OpenAfter (X.map (·, none) ++ tail) := by
    rintro ⟨b, a, l, h, -⟩
    have : (DriverCall.connect a, (none : Option Err)) ∈ X.map (·, none) ++ tail := by rw [h]; simp
    rcases List.mem_append.1 this with h | h
    · obtain ⟨x, hx, he⟩ := List.mem_map.1 h
      injection he with he; exact hX x hx a he
    · exact ht _ h rfl
  have h1 : (DriverCall.close, (none : Option Err)) ∉ X.map (·, none) ++ tail ↔ DriverCall.close ∉ X := by
    rw [not_iff_not]
    constructor
    · intro h
      rcases List.mem_append.1 h with h | h
      · obtain ⟨x, hx, he⟩ := List.mem_map.1 h
        injection he with he; rwa [← he]
      · exact absurd rfl (ht _ h)
    · intro h; exact List.mem_append_left _ (List.mem_map.2 ⟨_, h, rfl⟩)
  rw [h1]
  simp [h0]

/-- The calls in the middle and at the end of a run (for the proofs; it models no file in /repo). -/
structure MidLast (t : String) (raw : Bool) (mid last : List DriverCall) : Prop where
  mid : ∀ x ∈ mid, x = .cursor ∨ (x = .fetch ∧ t = "POSTGRES") ∨ ∃ s o, x = .execute s o
  last : last = [] ∧ t = "POSTGRES" ∧ raw = true ∨ (t = "POSTGRES" → raw = false) ∧ (last = [.close] ∨ last = [.close, .fetch] ∧ t ≠ "POSTGRES")

section
variable {t : String} {raw : Bool} {mid last : List DriverCall}

theorem MidLast.no_connect (h : MidLast t raw mid last) : ∀ x ∈ mid ++ last, ∀ a, x ≠ .connect a := by
  rintro x hx a rfl
  rcases List.mem_append.1 hx with hx | hx
  · rcases h.mid _ hx with h | ⟨h, -⟩ | ⟨s, o, h⟩ <;> cases h
  · rcases h.last with ⟨rfl, -⟩ | ⟨-, rfl | ⟨rfl, -⟩⟩ <;> simp at hx

theorem MidLast.no_close (h : MidLast t raw mid last) : DriverCall.close ∉ mid := by
  intro hx
  rcases h.mid _ hx with h | ⟨h, -⟩ | ⟨s, o, h⟩ <;> cases h

theorem MidLast.no_execute (h : MidLast t raw mid last) (s : String) (o : Option Yaml) : DriverCall.execute s o ∉ last := by
  rcases h.last with ⟨rfl, -⟩ | ⟨-, rfl | ⟨rfl, -⟩⟩ <;> simp

theorem MidLast.before_execute (h : MidLast t raw mid last) {b z : List DriverCall} {s : String} {o : Option Yaml} (he : mid ++ last = b ++ .execute s o :: z) :
    DriverCall.close ∉ b := by
  rcases List.append_eq_append_iff.1 he with ⟨as, rfl, h2⟩ | ⟨as, rfl, h2⟩
  · exact absurd (by rw [h2]; simp) (h.no_execute s o)
  · exact fun hb => h.no_close (List.mem_append_left _ hb)

theorem MidLast.before_fetch (h : MidLast t raw mid last) (ht : t ≠ "POSTGRES") {b z : List DriverCall} (he : mid ++ last = b ++ .fetch :: z) :
    DriverCall.close ∈ b := by
  have hm : DriverCall.fetch ∉ mid := fun hx => by rcases h.mid _ hx with h | ⟨-, h⟩ | ⟨s, o, h⟩ <;> first | exact ht h | cases h
  rcases List.append_eq_append_iff.1 he with ⟨as, rfl, h2⟩ | ⟨as, rfl, h2⟩
  · rcases h.last with ⟨rfl, -⟩ | ⟨-, rfl | ⟨rfl, -⟩⟩
    · simp at h2
    · cases as with
      | nil => simp at h2
      | cons a as => simp at h2
    · cases as with
      | nil => simp at h2
      | cons a as => simp only [List.cons_append, List.cons.injEq] at h2; rw [← h2.1]; simp
  · cases as with
    | nil => simp only [List.append_nil] at *
             rcases h.last with ⟨rfl, -⟩ | ⟨-, rfl | ⟨rfl, -⟩⟩ <;> simp at h2
    | cons a as => simp only [List.cons_append, List.cons.injEq] at h2; rw [← h2.1] at hm; simp at hm

theorem MidLast.texts (h : MidLast t raw mid last) : textsOf (mid ++ last) = textsOf mid := by
  rw [textsOf_append]
  rcases h.last with ⟨rfl, -⟩ | ⟨-, rfl | ⟨rfl, -⟩⟩ <;> simp [textsOf, sentTexts]
end

/-- The shape of every run. -/
theorem run_any (render : Yaml → String) (pyInt : Yaml → Res ℤ) (fails : ℕ → Option Err) (sql : String) (c : Conn) (kw : Kw) :
    (∃ e, runDriven render pyInt fails sql (some c) kw = ([], .error e)) ∨
    ∃ t mid last r, dictGet c.attrs "type" = some (.str t) ∧
      RunTrace (loginOf render pyInt c t ((dictGet kw "timeout").getD (.int 180))) (∃ e, runQuery render sql (some c) kw = .error e) mid last
        (runDriven render pyInt fails sql (some c) kw).1 r ∧
      ((∃ v, (runDriven render pyInt fails sql (some c) kw).2 = .ok v) ↔ r = none) ∧
      (∀ x, runQuery render sql (some c) kw = .ok x → textsOf mid = x.texts) ∧ MidLast t (truthyOpt (dictGet kw "raw_cursor")) mid last ∧
      (∀ s o, .execute s (some o) ∈ mid → o = (dictGet kw "timeout").getD (.int 180)) ∧
      (t = "SNOWFLAKE" ∨ t = "BIGQUERY" → .execute sql (some ((dictGet kw "timeout").getD (.int 180))) ∈ mid ∨ ∃ e, runQuery render sql (some c) kw = .error e) := by
  cases hn : newRunner (some c) with
  | error e => left; exact ⟨e, by simp [runDriven, hn]⟩
  | ok x =>
    right
    obtain ⟨c', t⟩ := x
    obtain ⟨rfl, ht, -⟩ := newRunner_ok hn
    have hraw : (argOr kw "raw_cursor" (.bool false)).truthy = truthyOpt (dictGet kw "raw_cursor") := by
      unfold argOr
      cases dictGet kw "raw_cursor" <;> rfl
    obtain ⟨mid, last, r, h1, h2, h3, h4, h5, h6, h7⟩ := run_shape render pyInt fails sql c' kw t hn
    rw [hraw] at h5
    refine ⟨t, mid, last, r, ht, h1, ?_, h3, ⟨h4, h5⟩, h6, h7⟩
    rw [h2]
    cases r <;> simp

/-- C88 (a): what is sent to the warehouse is the texts of the query (C66) in their order, each once: nothing else, and nothing twice, whatever fails; when the call
returns all of them were sent. When they cannot be made nothing is sent. -/
theorem C88_sent (render : Yaml → String) (pyInt : Yaml → Res ℤ) (fails : ℕ → Option Err) (sql : String) (c : Conn) (kw : Kw) :
    (∀ x, runQuery render sql (some c) kw = .ok x → sentTexts (runDriven render pyInt fails sql (some c) kw).1 <+: x.texts ∧
      ((∃ v, (runDriven render pyInt fails sql (some c) kw).2 = .ok v) → sentTexts (runDriven render pyInt fails sql (some c) kw).1 = x.texts)) ∧
    (∀ e, runQuery render sql (some c) kw = .error e → sentTexts (runDriven render pyInt fails sql (some c) kw).1 = [] ∧
      ∃ e', (runDriven render pyInt fails sql (some c) kw).2 = .error e') := by
  rcases run_any render pyInt fails sql c kw with ⟨e, he⟩ | ⟨t, mid, last, r, -, h1, h2, h3, h4, -⟩
  · rw [he]
    exact ⟨fun x _ => ⟨List.nil_prefix, fun ⟨v, hv⟩ => by cases hv⟩, fun e' _ => ⟨rfl, e, rfl⟩⟩
  · have herr : r ≠ none → ∃ e', (runDriven render pyInt fails sql (some c) kw).2 = .error e' := by
      intro hr
      cases hv : (runDriven render pyInt fails sql (some c) kw).2 with
      | error e => exact ⟨e, rfl⟩
      | ok v => exact absurd (h2.1 ⟨v, hv⟩) hr
    generalize (runDriven render pyInt fails sql (some c) kw).1 = tr at h1 ⊢
    cases h1 with
    | noLogin e hl => exact ⟨fun x _ => ⟨List.nil_prefix, fun hv => by cases h2.1 hv⟩, fun e _ => ⟨rfl, herr (by simp)⟩⟩
    | refused args e hl => exact ⟨fun x _ => ⟨List.nil_prefix, fun hv => by cases h2.1 hv⟩, fun e _ => ⟨rfl, herr (by simp)⟩⟩
    | stopped args e hl hb => exact ⟨fun x _ => ⟨List.nil_prefix, fun hv => by cases h2.1 hv⟩, fun e _ => ⟨rfl, herr (by simp)⟩⟩
    | raised args done d rest e hl hb hml =>
      refine ⟨fun x hx => ⟨?_, fun hv => by cases h2.1 hv⟩, fun e he => absurd ⟨e, he⟩ hb⟩
      have : sentTexts ((DriverCall.connect args, none) :: (done.map (·, none) ++ [(d, some e)])) = textsOf (done ++ [d]) := by
        rw [textsOf_append]
        change sentTexts (done.map (·, none) ++ [(d, some e)]) = _
        rw [sentTexts_append]; rfl
      rw [this, ← h3 x hx, ← h4.texts, hml]
      refine ⟨textsOf rest, ?_⟩
      rw [← textsOf_append]; simp
    | returned args hl hb =>
      have : sentTexts ((DriverCall.connect args, none) :: (mid ++ last).map (·, none)) = textsOf mid := by
        rw [← h4.texts]; rfl
      exact ⟨fun x hx => by rw [this, h3 x hx]; exact ⟨List.prefix_refl _, fun _ => rfl⟩, fun e he => absurd ⟨e, he⟩ hb⟩

/-- C88 (b): every text is sent while the connection is open. -/
theorem C88_while_open (render : Yaml → String) (pyInt : Yaml → Res ℤ) (fails : ℕ → Option Err) (sql : String) (c : Conn) (kw : Kw) (before after : DriverTrace)
    (s : String) (o : Option Yaml) (x : Option Err) (h : (runDriven render pyInt fails sql (some c) kw).1 = before ++ (.execute s o, x) :: after) : OpenAfter before := by
  rcases run_any render pyInt fails sql c kw with ⟨e, he⟩ | ⟨t, mid, last, r, -, h1, -, -, h4, -⟩
  · rw [he] at h; simp at h
  · have key : ∀ (args : Kw) (Y : DriverTrace), (∃ z, mid ++ last = Y.map Prod.fst ++ z) → (DriverCall.connect args, none) :: Y = before ++ (.execute s o, x) :: after → OpenAfter before := by
      rintro args Y ⟨z, hz⟩ hY
      cases before with
      | nil => simp at hY
      | cons y b =>
        simp only [List.cons_append, List.cons.injEq] at hY
        obtain ⟨rfl, rfl⟩ := hY
        rw [openAfter_cons]
        refine .inr ⟨rfl, ⟨args, rfl⟩, fun hb => ?_⟩
        refine h4.before_execute (b := b.map Prod.fst) (s := s) (o := o) (z := after.map Prod.fst ++ z) (by rw [hz]; simp) (List.mem_map.2 ⟨_, hb, rfl⟩)
    generalize (runDriven render pyInt fails sql (some c) kw).1 = tr at h h1
    cases h1 with
    | noLogin e hl => simp at h
    | refused args e hl => cases before with
      | nil => simp at h
      | cons y b => simp at h
    | stopped args e hl hb => exact key args [] ⟨_, rfl⟩ h
    | raised args done d rest e hl hb hml => exact key args _ ⟨rest, by rw [hml]; simp [Function.comp_def]⟩ h
    | returned args hl hb => exact key args _ ⟨[], by simp [Function.comp_def]⟩ h

/-- C88 (c): when the call has returned the connection is closed, unless it is one to Postgres of which the cursor was asked for. -/
theorem C88_returned_closed (render : Yaml → String) (pyInt : Yaml → Res ℤ) (fails : ℕ → Option Err) (sql : String) (c : Conn) (kw : Kw) (v : Returned)
    (hv : (runDriven render pyInt fails sql (some c) kw).2 = .ok v) (hp : ¬ (dictGet c.attrs "type" = some (.str "POSTGRES") ∧ truthyOpt (dictGet kw "raw_cursor") = true)) :
    ¬ OpenAfter (runDriven render pyInt fails sql (some c) kw).1 := by
  rcases run_any render pyInt fails sql c kw with ⟨e, he⟩ | ⟨t, mid, last, r, ht, h1, h2, h3, h4, -⟩
  · rw [he] at hv; cases hv
  · have hr := h2.1 ⟨v, hv⟩
    subst hr
    generalize (runDriven render pyInt fails sql (some c) kw).1 = tr at h1
    cases h1 with
    | returned args hl hb =>
      have := openAfter_run (args := args) (X := mid ++ last) (tail := []) h4.no_connect (by simp)
      rw [List.append_nil] at this
      rw [this, not_not]
      rcases h4.last with ⟨-, rfl, hr⟩ | ⟨-, rfl | ⟨rfl, -⟩⟩
      · exact absurd ⟨ht, hr⟩ hp
      · simp
      · simp

/-- C88 (c): a call that gives the cursor of a connection to Postgres leaves it open, and has not sent the query. -/
theorem C88_postgres_cursor (render : Yaml → String) (pyInt : Yaml → Res ℤ) (fails : ℕ → Option Err) (sql : String) (c : Conn) (kw : Kw) (v : Returned)
    (hv : (runDriven render pyInt fails sql (some c) kw).2 = .ok v) (hp : dictGet c.attrs "type" = some (.str "POSTGRES")) (hr : truthyOpt (dictGet kw "raw_cursor") = true) :
    OpenAfter (runDriven render pyInt fails sql (some c) kw).1 := by
  rcases run_any render pyInt fails sql c kw with ⟨e, he⟩ | ⟨t, mid, last, r, ht, h1, h2, h3, h4, -⟩
  · rw [he] at hv; cases hv
  · have hr' := h2.1 ⟨v, hv⟩
    subst hr'
    rw [hp] at ht; cases ht
    generalize (runDriven render pyInt fails sql (some c) kw).1 = tr at h1
    cases h1 with
    | returned args hl hb =>
      have := openAfter_run (args := args) (X := mid ++ last) (tail := []) h4.no_connect (by simp)
      rw [List.append_nil] at this
      rw [this]
      rcases h4.last with ⟨rfl, -, -⟩ | ⟨h, -⟩
      · rw [List.append_nil]; exact h4.no_close
      · rw [h rfl] at hr; cases hr

/-- **C88 fails** for queries the warehouse refuses: the connection is left open, on every warehouse, whatever text was refused. -/
theorem C88_failed_left_open (render : Yaml → String) (pyInt : Yaml → Res ℤ) (fails : ℕ → Option Err) (sql : String) (c : Conn) (kw : Kw)
    (h : QueryFailed (runDriven render pyInt fails sql (some c) kw).1) :
    OpenAfter (runDriven render pyInt fails sql (some c) kw).1 ∧ ∃ e, (runDriven render pyInt fails sql (some c) kw).2 = .error e := by
  obtain ⟨s, o, x, hx⟩ := h
  rcases run_any render pyInt fails sql c kw with ⟨e, he⟩ | ⟨t, mid, last, r, ht, h1, h2, h3, h4, -⟩
  · rw [he] at hx; simp at hx
  · have herr : r ≠ none → ∃ e', (runDriven render pyInt fails sql (some c) kw).2 = .error e' := by
      intro hr
      cases hv : (runDriven render pyInt fails sql (some c) kw).2 with
      | error e => exact ⟨e, rfl⟩
      | ok v => exact absurd (h2.1 ⟨v, hv⟩) hr
    generalize (runDriven render pyInt fails sql (some c) kw).1 = tr at h1 hx
    cases h1 with
    | noLogin e hl => simp at hx
    | refused args e hl => simp at hx
    | stopped args e hl hb => simp at hx
    | raised args done d rest e hl hb hml =>
      refine ⟨?_, herr (by simp)⟩
      have hd : d = .execute s o := by
        rcases List.mem_cons.1 hx with hx | hx
        · simp at hx
        rcases List.mem_append.1 hx with hx | hx
        · obtain ⟨y, -, hy⟩ := List.mem_map.1 hx; simp at hy
        · simp only [List.mem_singleton, Prod.mk.injEq] at hx; exact hx.1.symm
      subst hd
      rw [openAfter_run (fun y hy => h4.no_connect y (by rw [hml]; exact List.mem_append_left _ hy)) (by simp)]
      exact h4.before_execute hml
    | returned args hl hb =>
      rcases List.mem_cons.1 hx with hx | hx
      · simp at hx
      · obtain ⟨y, -, hy⟩ := List.mem_map.1 hx; simp at hy

/-- C88 (c), partial: no connection is left open by a call of which nothing raises but connecting itself or, on a warehouse other than Postgres, reading the rows.
What is missing: calls in which the text before the query cannot be made, a text is refused (`C88_failed_left_open`), a cursor cannot be made, closing fails, or reading rows from Postgres
fails; these leave it open. -/
theorem C88_closed_partial (render : Yaml → String) (pyInt : Yaml → Res ℤ) (fails : ℕ → Option Err) (sql : String) (c : Conn) (kw : Kw) (x : Execution)
    (hq : runQuery render sql (some c) kw = .ok x)
    (hf : ∀ d e, (d, some e) ∈ (runDriven render pyInt fails sql (some c) kw).1 → (∃ a, d = .connect a) ∨ d = .fetch ∧ dictGet c.attrs "type" ≠ some (.str "POSTGRES"))
    (hp : ¬ (dictGet c.attrs "type" = some (.str "POSTGRES") ∧ truthyOpt (dictGet kw "raw_cursor") = true)) :
    ¬ OpenAfter (runDriven render pyInt fails sql (some c) kw).1 := by
  rcases run_any render pyInt fails sql c kw with ⟨e, he⟩ | ⟨t, mid, last, r, ht, h1, h2, h3, h4, -⟩
  · rw [he]; exact openAfter_nil
  · generalize htr : (runDriven render pyInt fails sql (some c) kw).1 = tr at h1 hf
    cases h1 with
    | noLogin e hl => exact openAfter_nil
    | refused args e hl => rw [openAfter_cons]; rintro (h | ⟨h, -⟩); exacts [openAfter_nil h, by cases h]
    | stopped args e hl hb => obtain ⟨e', he'⟩ := hb; rw [hq] at he'; cases he'
    | raised args done d rest e hl hb hml =>
      rw [openAfter_run (fun y hy => h4.no_connect y (by rw [hml]; exact List.mem_append_left _ hy)) (by simp), not_not]
      rcases hf d e (by simp) with ⟨a, rfl⟩ | ⟨rfl, hn⟩
      · exact absurd rfl (h4.no_connect (.connect a) (by rw [hml]; simp) a)
      · exact h4.before_fetch (fun h => hn (by rw [ht, h])) hml
    | returned args hl hb =>
      obtain ⟨v, hv⟩ := h2.2 rfl
      have := C88_returned_closed render pyInt fails sql c kw v hv hp
      rwa [htr] at this

theorem prefix_of_done {X : List DriverCall} {w : DriverCall × Option Err} {b z : DriverTrace} {y : DriverCall × Option Err}
    (h : X.map (·, none) ++ [w] = b ++ y :: z) : ∃ d e, X = d ++ e ∧ b = d.map (·, none) := by
  have hp : b <+: X.map (·, none) ++ [w] := ⟨y :: z, h.symm⟩
  rcases List.prefix_concat_iff.1 hp with rfl | ⟨e, he⟩
  · have := congrArg List.length h; simp at this
  · obtain ⟨d, e', h1, h2, -⟩ := List.map_eq_append_iff.1 he.symm
    exact ⟨d, e', h1, h2.symm⟩

/-- C88 (d): on every warehouse but Postgres the connection is closed before the rows are read. -/
theorem C88_read_after_close (render : Yaml → String) (pyInt : Yaml → Res ℤ) (fails : ℕ → Option Err) (sql : String) (c : Conn) (kw : Kw)
    (hp : dictGet c.attrs "type" ≠ some (.str "POSTGRES")) (before after : DriverTrace) (x : Option Err)
    (h : (runDriven render pyInt fails sql (some c) kw).1 = before ++ (.fetch, x) :: after) : (DriverCall.close, none) ∈ before ∧ ¬ OpenAfter before := by
  rcases run_any render pyInt fails sql c kw with ⟨e, he⟩ | ⟨t, mid, last, r, ht, h1, h2, h3, h4, -⟩
  · rw [he] at h; simp at h
  · have hn : t ≠ "POSTGRES" := fun h => hp (by rw [ht, h])
    have key : ∀ (args : Kw) (Y : DriverTrace), (∃ z, mid ++ last = Y.map Prod.fst ++ z) →
        (∀ b y z, Y = b ++ y :: z → ∃ d : List DriverCall, b = d.map (·, none)) →
        (DriverCall.connect args, none) :: Y = before ++ (.fetch, x) :: after → (DriverCall.close, none) ∈ before ∧ ¬ OpenAfter before := by
      rintro args Y ⟨z, hz⟩ hd hY
      cases before with
      | nil => simp at hY
      | cons y b =>
        simp only [List.cons_append, List.cons.injEq] at hY
        obtain ⟨rfl, rfl⟩ := hY
        obtain ⟨d, rfl⟩ := hd b _ _ rfl
        have hz' : mid ++ last = d ++ .fetch :: (after.map Prod.fst ++ z) := by rw [hz]; simp [Function.comp_def]
        have hc := h4.before_fetch hn hz'
        refine ⟨List.mem_cons_of_mem _ (List.mem_map.2 ⟨_, hc, rfl⟩), ?_⟩
        have := openAfter_run (args := args) (X := d) (tail := []) (fun y hy => h4.no_connect y (by rw [hz']; exact List.mem_append_left _ hy)) (by simp)
        rw [List.append_nil] at this
        rw [this, not_not]
        exact hc
    generalize (runDriven render pyInt fails sql (some c) kw).1 = tr at h h1
    cases h1 with
    | noLogin e hl => simp at h
    | refused args e hl => cases before with
      | nil => simp at h
      | cons y b => simp at h
    | stopped args e hl hb => exact key args [] ⟨_, rfl⟩ (by simp) h
    | raised args done d rest e hl hb hml =>
      refine key args _ ⟨rest, by rw [hml]; simp [Function.comp_def]⟩ ?_ h
      intro b y z hY
      obtain ⟨d, -, -, hd⟩ := prefix_of_done hY
      exact ⟨d, hd⟩
    | returned args hl hb =>
      refine key args _ ⟨[], by simp [Function.comp_def]⟩ ?_ h
      intro b y z hY
      obtain ⟨d, _, -, hd, -⟩ := List.map_eq_append_iff.1 hY
      exact ⟨d, hd.symm⟩

theorem attr_some {c : Conn} {k : String} {v : Yaml} (h : c.attr k = .ok v) : dictGet c.attrs k = some v := by
  unfold Conn.attr at h
  cases hd : dictGet c.attrs k with
  | none => rw [hd] at h; cases h
  | some w => rw [hd] at h; cases h; rfl

theorem bind_ok {α β : Type} {x : Res α} {f : α → Res β} {y : β} (h : (x >>= f) = .ok y) : ∃ a, x = .ok a ∧ f a = .ok y := by
  cases x with
  | error e => cases h
  | ok a => exact ⟨a, rfl, h⟩

/-- C88 (e): every login is made with what the connection says, and on Redshift and Postgres with the time-out: in seconds, and in milliseconds as a setting of the session. -/
theorem C88_login (render : Yaml → String) (pyInt : Yaml → Res ℤ) (fails : ℕ → Option Err) (sql : String) (c : Conn) (kw : Kw) (args : Kw) (x : Option Err)
    (h : (.connect args, x) ∈ (runDriven render pyInt fails sql (some c) kw).1) :
    (dictGet c.attrs "type" = some (.str "SNOWFLAKE") →
      Credentials c args [("account", "account"), ("user", "username"), ("password", "password"), ("role", "role")]) ∧
    (dictGet c.attrs "type" = some (.str "REDSHIFT") →
      Credentials c args [("host", "host"), ("port", "port"), ("database", "database"), ("user", "username"), ("password", "password")] ∧
      dictGet args "timeout" = some ((dictGet kw "timeout").getD (.int 180))) ∧
    (dictGet c.attrs "type" = some (.str "BIGQUERY") → Credentials c args [("credentials", "credentials"), ("project", "project_id")]) ∧
    (dictGet c.attrs "type" = some (.str "POSTGRES") → ∃ u p host port db n, dictGet c.attrs "username" = some u ∧ dictGet c.attrs "password" = some p ∧
      dictGet c.attrs "host" = some host ∧ dictGet c.attrs "port" = some port ∧ dictGet c.attrs "database" = some db ∧ pyInt port = .ok n ∧
      dictGet args "url" = some (.str ("postgresql://" ++ textOfValue render u ++ ":" ++ textOfValue render p ++ "@" ++ textOfValue render host ++ ":" ++ toString n ++ "/" ++
        textOfValue render db)) ∧
      ((dictGet kw "timeout").getD (.int 180) = .bool true → dictGet args "options" = some (.str "-c statement_timeout=1000")) ∧
      ∀ k : ℤ, (dictGet kw "timeout").getD (.int 180) = .int k → dictGet args "options" = if k = 0 then none else some (.str ("-c statement_timeout=" ++ toString (k * 1000)))) := by
  rcases run_any render pyInt fails sql c kw with ⟨e, he⟩ | ⟨t, mid, last, r, ht, h1, h2, h3, h4, -⟩
  · rw [he] at h; simp at h
  have hl : loginOf render pyInt c t ((dictGet kw "timeout").getD (.int 180)) = .ok args := by
    generalize (runDriven render pyInt fails sql (some c) kw).1 = tr at h h1
    cases h1 with
    | noLogin e hl => simp at h
    | refused args' e hl => simp at h; rw [h.1]; exact hl
    | stopped args' e hl hb => simp at h; rw [h.1]; exact hl
    | raised args' done d rest e hl hb hml =>
      rcases List.mem_cons.1 h with h | h
      · simp at h; rw [h.1]; exact hl
      rcases List.mem_append.1 h with h | h
      · obtain ⟨y, hy, he⟩ := List.mem_map.1 h
        injection he with he
        exact absurd he (h4.no_connect y (by rw [hml]; exact List.mem_append_left _ hy) args)
      · simp only [List.mem_singleton, Prod.mk.injEq] at h
        exact absurd h.1.symm (h4.no_connect d (by rw [hml]; simp) args)
    | returned args' hl hb =>
      rcases List.mem_cons.1 h with h | h
      · simp at h; rw [h.1]; exact hl
      obtain ⟨y, hy, he⟩ := List.mem_map.1 h
      injection he with he
      exact absurd he (h4.no_connect y hy args)
  generalize (dictGet kw "timeout").getD (.int 180) = timeout at hl ⊢
  rw [ht]
  refine ⟨?_, ?_, ?_, ?_⟩ <;> intro hh <;> cases hh
  · change snowflakeLogin c = .ok args at hl
    obtain ⟨a, ha, hl⟩ := bind_ok hl
    obtain ⟨u, hu, hl⟩ := bind_ok hl
    obtain ⟨p, hp, hl⟩ := bind_ok hl
    obtain ⟨ro, hr, hl⟩ := bind_ok hl
    cases hl
    simp only [Credentials, List.mem_cons, List.not_mem_nil, or_false, forall_eq_or_imp, forall_eq]
    exact ⟨⟨a, rfl, attr_some ha⟩, ⟨u, rfl, attr_some hu⟩, ⟨p, rfl, attr_some hp⟩, ⟨ro, rfl, attr_some hr⟩⟩
  · change redshiftLogin c timeout = .ok args at hl
    obtain ⟨a, ha, hl⟩ := bind_ok hl
    obtain ⟨o, ho, hl⟩ := bind_ok hl
    obtain ⟨d, hd, hl⟩ := bind_ok hl
    obtain ⟨u, hu, hl⟩ := bind_ok hl
    obtain ⟨p, hp, hl⟩ := bind_ok hl
    cases hl
    simp only [Credentials, List.mem_cons, List.not_mem_nil, or_false, forall_eq_or_imp, forall_eq]
    exact ⟨⟨⟨a, rfl, attr_some ha⟩, ⟨o, rfl, attr_some ho⟩, ⟨d, rfl, attr_some hd⟩, ⟨u, rfl, attr_some hu⟩, ⟨p, rfl, attr_some hp⟩⟩, rfl⟩
  · change bigqueryLogin c = .ok args at hl
    obtain ⟨k, hk, hl⟩ := bind_ok hl
    obtain ⟨p, hp, hl⟩ := bind_ok hl
    cases hl
    simp only [Credentials, List.mem_cons, List.not_mem_nil, or_false, forall_eq_or_imp, forall_eq]
    exact ⟨⟨k, rfl, attr_some hk⟩, ⟨p, rfl, attr_some hp⟩⟩
  · change postgresLogin render pyInt c timeout = .ok args at hl
    obtain ⟨u, hu, hl⟩ := bind_ok hl
    obtain ⟨p, hp, hl⟩ := bind_ok hl
    obtain ⟨a, ha, hl⟩ := bind_ok hl
    obtain ⟨d, hd, hl⟩ := bind_ok hl
    obtain ⟨o, ho, hl⟩ := bind_ok hl
    obtain ⟨n, hn, hl⟩ := bind_ok hl
    obtain ⟨ts, hts, hl⟩ := bind_ok hl
    cases hl
    refine ⟨u, p, a, o, d, n, attr_some hu, attr_some hp, attr_some ha, attr_some ho, attr_some hd, hn, rfl, ?_, ?_⟩
    · rintro rfl
      have : ts = [("options", .str "-c statement_timeout=1000")] := by simpa [statementTimeout, Yaml.truthy] using hts.symm
      subst this; rfl
    rintro k rfl
    unfold statementTimeout at hts
    by_cases hk : k = 0
    · subst hk
      have : ts = [] := by simpa [Yaml.truthy] using hts.symm
      subst this; rfl
    · rw [if_neg hk]
      have : ts = [("options", .str ("-c statement_timeout=" ++ toString (k * 1000)))] := by simpa [Yaml.truthy, hk] using hts.symm
      subst this; rfl

/-- C88 (e): on Snowflake and BigQuery the query is sent with the time-out. -/
theorem C88_timeout (render : Yaml → String) (pyInt : Yaml → Res ℤ) (fails : ℕ → Option Err) (sql : String) (c : Conn) (kw : Kw) (v : Returned)
    (hv : (runDriven render pyInt fails sql (some c) kw).2 = .ok v)
    (ht : dictGet c.attrs "type" = some (.str "SNOWFLAKE") ∨ dictGet c.attrs "type" = some (.str "BIGQUERY")) :
    (.execute sql (some ((dictGet kw "timeout").getD (.int 180))), none) ∈ (runDriven render pyInt fails sql (some c) kw).1 := by
  rcases run_any render pyInt fails sql c kw with ⟨e, he⟩ | ⟨t, mid, last, r, ht', h1, h2, h3, h4, -, h6⟩
  · rw [he] at hv; cases hv
  · have hr := h2.1 ⟨v, hv⟩
    subst hr
    have ht2 : t = "SNOWFLAKE" ∨ t = "BIGQUERY" := by
      rcases ht with h | h <;> rw [ht'] at h <;> cases h
      · exact .inl rfl
      · exact .inr rfl
    generalize (runDriven render pyInt fails sql (some c) kw).1 = tr at h1
    cases h1 with
    | returned args hl hb =>
      rcases h6 ht2 with h | h
      · exact List.mem_cons_of_mem _ (List.mem_map.2 ⟨_, List.mem_append_left _ h, rfl⟩)
      · exact absurd h hb

/-! ### Concrete cases: the Snowflake connection of area Connect. -/

/-- Nothing fails: login, the text before, the query, closing, rows. -/
example : (runDriven (fun _ => "") (fun _ => .ok 0) (fun _ => none) "SELECT 1;" (some cnConn) []).2 = .ok .rows ∧
    sentTexts (runDriven (fun _ => "") (fun _ => .ok 0) (fun _ => none) "SELECT 1;" (some cnConn) []).1 = ["USE WAREHOUSE wh;USE SCHEMA \"MAIN\";", "SELECT 1;"] := by
  constructor <;> decide +kernel

/-- The fourth call, the query, is refused: the connection stays open. -/
example : OpenAfter (runDriven (fun _ => "") (fun _ => .ok 0) (fun n => if n = 3 then some .other else none) "SELECT 1;" (some cnConn) []).1 :=
  (C88_failed_left_open _ _ _ _ _ _ ⟨"SELECT 1;", some (.int 180), .other, by
    have : (runDriven (fun _ => "") (fun _ => .ok 0) (fun n => if n = 3 then some .other else none) "SELECT 1;" (some cnConn) []).1[3]? =
        some (.execute "SELECT 1;" (some (.int 180)), some .other) := rfl
    exact List.mem_of_getElem? this⟩).1

/-- Reading the rows fails: the connection is closed. -/
example : ¬ OpenAfter (runDriven (fun _ => "") (fun _ => .ok 0) (fun n => if n = 5 then some .other else none) "SELECT 1;" (some cnConn) []).1 := by
  have h : (runDriven (fun _ => "") (fun _ => .ok 0) (fun n => if n = 5 then some .other else none) "SELECT 1;" (some cnConn) []).1 =
      [(.connect [("account", .str "acc"), ("user", .str "ann"), ("password", .str "pw"), ("role", .null)], none), (.execute "USE WAREHOUSE wh;USE SCHEMA \"MAIN\";" none, none), (.cursor, none),
        (.execute "SELECT 1;" (some (.int 180)), none), (.close, none), (.fetch, some .other)] := by rfl
  rw [h]
  simp [openAfter_cons, openAfter_nil]

end ML
