import Verif.Arb.Props
/- C43: complete join conditions, mapped names, and how wrong queries are rejected. -/
set_option autoImplicit false
namespace ML
open Spec

/-! ### The join conditions -/

theorem joinConds_casts {env : ArbEnv} {base joined : String} : ∀ {ks : List JoinKey} {cs : List JoinCond}, joinConds env base joined ks = .ok cs →
    List.Forall₂ (fun k c => ∃ jf bf, env.get k.field = .ok jf ∧ env.get k.source = .ok bf ∧ c.base = (base, bf.aliasName) ∧
      c.joined = (joined, jf.aliasName) ∧ (c.cast = true ↔ env.bigquery = true ∧ bf.datatype ≠ jf.datatype)) ks cs := by
  intro ks
  induction ks with
  | nil => intro cs h; injection h with h; subst h; exact .nil
  | cons k ks ih =>
    intro cs h
    simp only [joinConds] at h
    cases h1 : env.get k.field with
    | error e => rw [h1] at h; cases h
    | ok jf =>
      rw [h1] at h; simp only at h
      cases h2 : env.get k.source with
      | error e => rw [h2] at h; cases h
      | ok bf =>
        rw [h2] at h; simp only at h
        cases h3 : joinConds env base joined ks with
        | error e => rw [h3] at h; cases h
        | ok cs' =>
          rw [h3] at h
          injection h with h; subst h
          exact .cons ⟨jf, bf, h1, h2, rfl, rfl, by simp⟩ (ih h3)

/-- C43: every later sub-query is joined to the first by one equality for each of its join fields, in order: the column of the
source field in the first query equals the column of the join field in this one. On BigQuery, and only there, both are cast to
timestamps when their data types differ. -/
theorem C43_join_conditions (env : ArbEnv) (items : List MergeItem) (filters orders : List String) (res : ArbQuery)
    (h : arbQuery env items filters orders = .ok res) :
    List.Forall₂ (fun s j => j.1 = s.cte ∧
      List.Forall₂ (fun k c => ∃ jf bf, env.get k.field = .ok jf ∧ env.get k.source = .ok bf ∧ c.base = ("merged_query_0", bf.aliasName) ∧
        c.joined = (s.cte, jf.aliasName) ∧ (c.cast = true ↔ env.bigquery = true ∧ bf.datatype ≠ jf.datatype)) s.joinFields j.2.2)
      res.subs.tail res.joins := by
  obtain ⟨q0, q, rest, primary, lookup, h1, h2, h3, hlen, hround, hj, _⟩ := arbQuery_ok h
  have hne : ∀ s ∈ res.subs.tail, s.joinFields ≠ [] := by
    intro s hs
    obtain ⟨k, hk⟩ := List.mem_iff_getElem?.mp hs
    rw [List.getElem?_tail] at hk
    have hlt : k < rest.length := by
      by_contra hc
      rw [List.getElem?_eq_none (by omega)] at hk
      cases hk
    have hm : (q :: rest)[k + 1]? = some rest[k] := by
      rw [List.getElem?_cons_succ, List.getElem?_eq_getElem hlt]
    obtain ⟨r, -, -, -, -, -, hjk⟩ := hround (k + 1) _ s hm hk
    rw [if_pos (Nat.succ_pos k)] at hjk
    have hlq := cleanMergesFrom_length h1
    simp only [List.length_cons] at hlq
    obtain ⟨m, hm1, hm2⟩ := cleanMergesFrom_get h1 (k + 1) _ (List.getElem?_eq_getElem (show k + 1 < items.length by omega))
    rw [Nat.zero_add] at hm2
    rw [List.getElem?_cons_succ, List.getElem?_eq_getElem hlt, Option.some.injEq] at hm1
    have hn := cleanMerge_join_ne hm2 (Nat.succ_pos k)
    rw [← hm1] at hn
    intro hs0
    have hf := joinKeys_ok hjk
    rw [hs0] at hf
    cases hjf : (rest[k]).joinFields with
    | nil => exact hn hjf
    | cons => rw [hjf] at hf; cases hf
  refine (arbJoins_ok hj hne).imp ?_
  rintro s j ⟨h1, -, h3⟩
  exact ⟨h1, joinConds_casts h3⟩

/-! ### Mapped names -/

/-- The field that stands for a mapped name in a sub-query: the first of its fields that is among the dimensions, if none the
first among the fields of the conditions, if none the first among those of the ordering. -/
def Spec.ServesName (r : SubRes) (fields : List String) (f : String) : Prop :=
  (∃ pre post, fields = pre ++ f :: post ∧ f ∈ r.dimensions ∧ ∀ x ∈ pre, x ∉ r.dimensions) ∨
  ((∀ x ∈ fields, x ∉ r.dimensions) ∧
    ((∃ pre post, fields = pre ++ f :: post ∧ f ∈ r.whereFields ∧ ∀ x ∈ pre, x ∉ r.whereFields) ∨
     ((∀ x ∈ fields, x ∉ r.whereFields) ∧
      ∃ pre post, fields = pre ++ f :: post ∧ f ∈ r.orderFields ∧ ∀ x ∈ pre, x ∉ r.orderFields)))

/-- Every mapped name of a sub-query is used in its dimensions, conditions or ordering. -/
def Spec.MappingsUsed (env : ArbEnv) : Prop :=
  ∀ q e r, env.resolve q e = .ok r → ∀ p ∈ r.mappings, ∃ f ∈ p.2, f ∈ r.dimensions ∨ f ∈ r.whereFields ∨ f ∈ r.orderFields

theorem find_in_some {l : List String} {set : List String} {f : String} (h : l.find? (fun f => decide (f ∈ set)) = some f) :
    ∃ pre post, l = pre ++ f :: post ∧ f ∈ set ∧ ∀ x ∈ pre, x ∉ set := by
  obtain ⟨h1, pre, post, h2, h3⟩ := List.find?_eq_some_iff_append.mp h
  exact ⟨pre, post, h2, by simpa using h1, fun x hx => by simpa using h3 x hx⟩

theorem find_in_none {l : List String} {set : List String} (h : l.find? (fun f => decide (f ∈ set)) = none) : ∀ x ∈ l, x ∉ set := by
  intro x hx
  simpa using List.find?_eq_none.mp h x hx

/-- The look-up table is right: each of its entries stands for its name in some sub-query. -/
def LookupRight (env : ArbEnv) (lookup : List (String × String)) : Prop :=
  ∀ n f, dictGet lookup n = some f → ∃ q e r fields, env.resolve q e = .ok r ∧ (n, fields) ∈ r.mappings ∧ ServesName r fields f

theorem noteMappings_right {env : ArbEnv} {q : MergeSub} {e : List String} {r : SubRes} (hr : env.resolve q e = .ok r) :
    ∀ (ms : List (String × List String)), (∀ p ∈ ms, p ∈ r.mappings ∧ ∃ f ∈ p.2, f ∈ r.dimensions ∨ f ∈ r.whereFields ∨ f ∈ r.orderFields) →
    ∀ (last : Option String) (l : List (String × String)), LookupRight env l →
      ∃ l', noteMappings r last ms l = .ok l' ∧ LookupRight env l' := by
  intro ms
  induction ms with
  | nil => intro _ last l hl; exact ⟨l, rfl, hl⟩
  | cons p ms ih =>
    obtain ⟨name, fields⟩ := p
    intro hms last l hl
    obtain ⟨hmem, f0, hf0, huse⟩ := hms (name, fields) (by simp)
    have hms' := fun p hp => hms p (List.mem_cons_of_mem _ hp)
    unfold noteMappings
    by_cases hg : (dictGet l name).isSome = true
    · rw [if_pos hg]
      exact ih hms' last l hl
    · rw [if_neg hg]
      have step : ∀ f, ServesName r fields f → ∃ l', noteMappings r (some f) ms (dictSet l name f) = .ok l' ∧ LookupRight env l' := by
        intro f hf
        apply ih hms'
        intro n g hn
        by_cases he : n = name
        · subst he
          rw [dictGet_set, if_pos rfl] at hn
          injection hn with hn
          subst hn
          exact ⟨q, e, r, fields, hr, hmem, hf⟩
        · rw [dictGet_set, if_neg (Ne.symm he)] at hn
          exact hl n g hn
      cases h1 : fields.find? (fun f => decide (f ∈ r.dimensions)) with
      | some f => exact step f (.inl (find_in_some h1))
      | none =>
        have n1 := find_in_none h1
        cases h2 : fields.find? (fun f => decide (f ∈ r.whereFields)) with
        | some f => exact step f (.inr ⟨n1, .inl (find_in_some h2)⟩)
        | none =>
          have n2 := find_in_none h2
          cases h3 : fields.find? (fun f => decide (f ∈ r.orderFields)) with
          | some f => exact step f (.inr ⟨n1, .inr ⟨n2, find_in_some h3⟩⟩)
          | none =>
            rcases huse with h | h | h
            · exact absurd h (n1 f0 hf0)
            · exact absurd h (n2 f0 hf0)
            · exact absurd h (find_in_none h3 f0 hf0)

theorem subQueries_right {env : ArbEnv} (hused : MappingsUsed env) {primary : SubRes} : ∀ {qs : List MergeSub} {i : ℕ}
    {lookup l' : List (String × String)} {ss : List SubQ},
    subQueries env primary i qs lookup = .ok (ss, l') → LookupRight env lookup → LookupRight env l' := by
  intro qs
  induction qs with
  | nil =>
    intro i lookup l' ss h hl
    injection h with h; injection h with _ h; subst h
    exact hl
  | cons q qs ih =>
    intro i lookup l' ss h hl
    simp only [subQueries] at h
    cases h1 : env.resolve q (q.joinFields.map (·.field)) with
    | error e => rw [h1] at h; cases h
    | ok r =>
      rw [h1] at h; simp only at h
      obtain ⟨lk, h2, hlk⟩ := noteMappings_right h1 r.mappings (fun p hp => ⟨hp, hused _ _ _ h1 p hp⟩) none lookup hl
      rw [h2] at h; simp only at h
      cases h3 : (if 0 < i then joinKeys env primary r q.joinFields else .ok q.joinFields : Res (List JoinKey)) with
      | error e => rw [h3] at h; cases h
      | ok js =>
        rw [h3] at h; simp only at h
        cases h4 : env.build q r with
        | error e => rw [h4] at h; cases h
        | ok u =>
          rw [h4] at h; simp only at h
          cases h5 : subQueries env primary (i + 1) qs lk with
          | error e => rw [h5] at h; cases h
          | ok p =>
            obtain ⟨ss', l''⟩ := p
            rw [h5] at h; simp only at h
            injection h with h; injection h with _ h; subst h
            exact ih h5 hlk

/-- C43: a mapped name in a filter or an ordering of the merged query is replaced by a field that stands for it in one of the
sub-queries, and every other name is kept; each filter and each ordering uses the column of its field, taken from the
sub-query that shows it. -/
theorem C43_mapped_names (env : ArbEnv) (hused : MappingsUsed env) (items : List MergeItem) (filters orders : List String) (res : ArbQuery)
    (h : arbQuery env items filters orders = .ok res) :
    ∃ rename : String → String,
      (∀ n, rename n = n ∨ ∃ q e r fields, env.resolve q e = .ok r ∧ (n.toLower, fields) ∈ r.mappings ∧ ServesName r fields (rename n)) ∧
      List.Forall₂ (fun n c => ∃ f i s, env.get (rename n) = .ok f ∧ ShowsAt env res.subs i s f.aliasName ∧ c = (s.cte, f.aliasName))
        (filters ++ orders) (res.filters ++ res.orders) := by
  have hrename : ∃ rename : String → String,
      (∀ n, rename n = n ∨ ∃ q e r fields, env.resolve q e = .ok r ∧ (n.toLower, fields) ∈ r.mappings ∧ ServesName r fields (rename n)) ∧
      useColumns env res.columns (filters.map rename) = .ok res.filters ∧ useColumns env res.columns (orders.map rename) = .ok res.orders := by
    unfold arbQuery at h
    cases h1 : cleanMergesFrom 0 items with
    | error e => rw [h1] at h; cases h
    | ok qs =>
      rw [h1] at h
      cases qs with
      | nil => cases h
      | cons q0 rest =>
        simp only at h
        cases h2 : openRaw q0 with
        | error e => rw [h2] at h; cases h
        | ok q =>
          rw [h2] at h; simp only at h
          cases h3 : env.resolve q ((q :: rest).flatMap (fun m => m.joinFields.map (·.source))) with
          | error e => rw [h3] at h; cases h
          | ok primary =>
            rw [h3] at h; simp only at h
            obtain ⟨lk, h4, hlk⟩ := noteMappings_right h3 primary.mappings (fun p hp => ⟨hp, hused _ _ _ h3 p hp⟩) none []
              (fun n f hn => (by cases hn))
            rw [h4] at h; simp only at h
            cases h5 : subQueries env primary 0 (q :: rest) lk with
            | error e => rw [h5] at h; cases h
            | ok p =>
              obtain ⟨subs, lookup⟩ := p
              rw [h5] at h; simp only at h
              have hright := subQueries_right hused h5 hlk
              cases h6 : arbJoins env "merged_query_0" subs.tail with
              | error e => rw [h6] at h; cases h
              | ok joins =>
                rw [h6] at h; simp only at h
                cases h7 : selectColumns env [] subs with
                | error e => rw [h7] at h; cases h
                | ok cols =>
                  rw [h7] at h; simp only at h
                  cases h8 : useColumns env cols (filters.map (fun n => (dictGet lookup n.toLower).getD n)) with
                  | error e => rw [h8] at h; cases h
                  | ok fs =>
                    rw [h8] at h; simp only at h
                    cases h9 : useColumns env cols (orders.map (fun n => (dictGet lookup n.toLower).getD n)) with
                    | error e => rw [h9] at h; cases h
                    | ok os =>
                      rw [h9] at h
                      injection h with h; subst h
                      refine ⟨_, ?_, h8, h9⟩
                      intro n
                      cases hd : dictGet lookup n.toLower with
                      | none => left; rfl
                      | some v => right; exact hright _ _ hd
  obtain ⟨rename, hren, hf, ho⟩ := hrename
  obtain ⟨_, hcols⟩ := C43_columns env items filters orders res h
  refine ⟨rename, hren, ?_⟩
  have key : ∀ ns cs, useColumns env res.columns (ns.map rename) = .ok cs →
      List.Forall₂ (fun n c => ∃ f i s, env.get (rename n) = .ok f ∧ ShowsAt env res.subs i s f.aliasName ∧ c = (s.cte, f.aliasName)) ns cs := by
    intro ns cs hu
    have := useColumns_ok hu
    rw [List.forall₂_map_left_iff] at this
    refine this.imp ?_
    rintro n ⟨c, a⟩ ⟨hm, f, hg, ha⟩
    simp only at ha
    subst ha
    obtain ⟨i, s, hs, rfl⟩ := (hcols c _).mp hm
    exact ⟨f, i, s, hg, hs, rfl⟩
  exact List.rel_append (key _ _ hf) (key _ _ ho)

/-! ### Rejected queries -/

theorem cleanJoin_error {js : List JoinArg} (hd : ∀ j ∈ js, ∃ f s, j = .dict f s) : ∀ {e : Err}, cleanJoin js = .error e → e = .query := by
  induction js with
  | nil => intro e h; cases h
  | cons j js ih =>
    intro e h
    obtain ⟨f, s, rfl⟩ := hd j (by simp)
    have ih' := fun e => ih (fun j hj => hd j (List.mem_cons_of_mem _ hj)) (e := e)
    cases f <;> cases s <;> simp only [cleanJoin] at h
    all_goals first
      | (injection h with h; exact h.symm)
      | (cases hr : cleanJoin js with
         | error e' => rw [hr] at h; injection h with h; subst h; exact ih' _ hr
         | ok ks => rw [hr] at h; cases h)

theorem cleanMerge_error {i : ℕ} {it : MergeItem}
    (hd : ∀ a js, it = .dict a → a.joinFields = .list js → ∀ j ∈ js, ∃ f s, j = .dict f s) {e : Err}
    (h : cleanMerge i it = .error e) : e = .query := by
  cases it with
  | notDict => injection h with h; exact h.symm
  | dict a =>
    simp only [cleanMerge] at h
    split at h
    · split at h
      · injection h with h; exact h.symm
      · split at h
        · injection h with h; exact h.symm
        · split at h
          · injection h with h; exact h.symm
          · cases h
        · rename_i js hjs
          split at h
          · split at h
            · injection h with h; exact h.symm
            · split at h
              · rename_i e' he'
                injection h with h
                rw [← h]
                exact cleanJoin_error (hd a js rfl hjs) he'
              · cases h
          · cases h
    · injection h with h; exact h.symm

/-- C43: a merge that is not well formed is rejected with a query error (if its join fields are dictionaries at all). -/
theorem C43_rejects (env : ArbEnv) (items : List MergeItem) (filters orders : List String)
    (hd : ∀ a js, .dict a ∈ items → a.joinFields = .list js → ∀ j ∈ js, ∃ f s, j = .dict f s) (hbad : ¬ WellFormedMerge items) :
    arbQuery env items filters orders = .error .query := by
  cases h : cleanMergesFrom 0 items with
  | ok qs => exact absurd ((C43_validation items).mp ⟨qs, h⟩) hbad
  | error e =>
    have key : ∀ (items : List MergeItem) (i : ℕ), (∀ a js, .dict a ∈ items → a.joinFields = .list js → ∀ j ∈ js, ∃ f s, j = .dict f s) →
        ∀ e, cleanMergesFrom i items = .error e → e = .query := by
      intro items
      induction items with
      | nil => intro i _ e h; cases h
      | cons it items ih =>
        intro i hd e h
        simp only [cleanMergesFrom] at h
        cases h1 : cleanMerge i it with
        | error e' =>
          rw [h1] at h; injection h with h; subst h
          exact cleanMerge_error (fun a js ha => hd a js (by simp [ha])) h1
        | ok c =>
          rw [h1] at h; simp only at h
          cases h2 : cleanMergesFrom (i + 1) items with
          | error e' =>
            rw [h2] at h; injection h with h; subst h
            exact ih (i + 1) (fun a js ha => hd a js (List.mem_cons_of_mem _ ha)) _ h2
          | ok cs => rw [h2] at h; cases h
    unfold arbQuery
    rw [h, key items 0 hd e h]

theorem joinKeyName_missing {env : ArbEnv} {r : SubRes} {name : String} (hno : ∀ col, ¬ NamesDimension env r name col)
    (hget : ∀ e, env.get name = .error e → e = .accessDenied) : joinKeyName env r name = .error .join := by
  cases h : joinKeyName env r name with
  | ok col => exact absurd (joinKeyName_ok h) (hno col)
  | error e =>
    unfold joinKeyName at h
    split at h
    · split at h
      · cases h
      · exact h.symm
    · split at h
      · exact h.symm
      · rename_i e' hne he'
        exact absurd (hget _ he') hne
      · split at h
        · cases h
        · exact h.symm

/-- C43: a second query whose first join field is not among its own dimensions is rejected with a join error, whether the name is
mapped, real or unknown. -/
theorem C43_join_missing (env : ArbEnv) (hused : MappingsUsed env) (items : List MergeItem) (filters orders : List String)
    (first second : MergeSub) (hq : cleanMergesFrom 0 items = .ok [first, second]) (hraw : first.rawJoin = [] ∧ first.joinFields = [])
    (hres : ∀ q ∈ [first, second], ∀ e, ∃ r, env.resolve q e = .ok r) (hbuild : ∀ r, ∃ u, env.build first r = .ok u)
    (k : JoinKey) (ks : List JoinKey) (hk : second.joinFields = k :: ks) (hget : ∀ e, env.get k.field = .error e → e = .accessDenied)
    (hno : ∀ r col, env.resolve second (second.joinFields.map (·.field)) = .ok r → ¬ NamesDimension env r k.field col) :
    arbQuery env items filters orders = .error .join := by
  have hopen : openRaw first = .ok first := by
    unfold openRaw
    rw [hraw.1]
    simp only [rawKeys, List.nil_append]
    rw [← hraw.1]
  unfold arbQuery
  rw [hq]
  simp only
  rw [hopen]
  simp only
  obtain ⟨primary, hp⟩ := hres first (by simp) ([first, second].flatMap (fun m => m.joinFields.map (·.source)))
  rw [hp]
  simp only
  obtain ⟨lk, h4, hlk⟩ := noteMappings_right hp primary.mappings (fun p hp' => ⟨hp', hused _ _ _ hp p hp'⟩) none []
    (fun n f hn => (by cases hn))
  rw [h4]
  simp only
  have hsub : subQueries env primary 0 [first, second] lk = .error .join := by
    unfold subQueries
    obtain ⟨r0, hr0⟩ := hres first (by simp) (first.joinFields.map (·.field))
    rw [hr0]
    simp only
    obtain ⟨lk1, h5, hlk1⟩ := noteMappings_right hr0 r0.mappings (fun p hp' => ⟨hp', hused _ _ _ hr0 p hp'⟩) none lk hlk
    rw [h5]
    simp only [Nat.lt_irrefl, if_false]
    obtain ⟨u, hu⟩ := hbuild r0
    rw [hu]
    simp only
    unfold subQueries
    obtain ⟨r1, hr1⟩ := hres second (by simp) (second.joinFields.map (·.field))
    rw [hr1]
    simp only
    obtain ⟨lk2, h6, -⟩ := noteMappings_right hr1 r1.mappings (fun p hp' => ⟨hp', hused _ _ _ hr1 p hp'⟩) none lk1 hlk1
    rw [h6]
    simp only
    rw [if_pos (by omega), hk]
    unfold joinKeys
    rw [joinKeyName_missing (fun col => hno r1 col hr1) hget]
  rw [hsub]

/-! ### Join fields of the first query -/

/-- A first query that has join fields. -/
def firstItem (js : List JoinArg) : MergeItem :=
  .dict { metrics := .list ["orders.total"], dimensions := .list ["orders.region"], joinFields := .list js }

/-- C43 fails for the first query: its join fields are not validated but they are used. They hide its own column, so that a
filter on it is rejected. -/
theorem C43_first_join_fields :
    (arbQuery arbEnvEx [firstItem [.dict (.str "orders.region") (.str "orders.region")], arbItems[1]] [] []).map
      (fun r => r.columns.map (·.2)) = .ok ["orders_total", "visits_count", "visits_day"] ∧
    arbQuery arbEnvEx [firstItem [.dict (.str "orders.region") (.str "orders.region")], arbItems[1]] ["orders.region"] [] = .error .query ∧
    arbQuery arbEnvEx [firstItem [.dict (.str "orders.region") .missing], arbItems[1]] [] [] = .error .keyError := by
  refine ⟨?_, ?_, ?_⟩ <;> decide +kernel

/-! #### Cases that meet the hypotheses -/

/-- The project of the example on BigQuery, with days as dates in one view, and `area` mapped to a dimension of each view. -/
def arbMapped : ArbEnv where
  get n := if n = "orders.day" then .ok ⟨n, "orders_day", some "date"⟩ else
    if n = "visits.day" then .ok ⟨n, "visits_day", some "timestamp"⟩ else arbGetEx n
  resolve q _ := .ok
    (if q.metrics = ["orders.total"] then
      { metrics := q.metrics, dimensions := ["orders.region", "orders.day"], mappings := [("area", ["visits.area", "orders.region"])] }
    else { metrics := q.metrics, dimensions := ["visits.day"], whereFields := ["visits.area"], mappings := [("area", ["visits.area", "orders.region"])] })
  build _ _ := .ok ()
  bigquery := true

/-- A query of orders by area and day, and one of visits by day, with the join fields. -/
def mappedItems (js : List JoinArg) : List MergeItem :=
  [.dict { metrics := .list ["orders.total"], dimensions := .list ["area", "orders.day"] },
   .dict { metrics := .list ["visits.count"], dimensions := .list ["visits.day"], joinFields := .list js }]

example : (arbQuery arbMapped (mappedItems [.dict (.str "visits.day") (.str "orders.day")]) ["Area"] []).map
    (fun r => (r.filters, r.joins.map (·.2.2))) =
    .ok ([("merged_query_0", "orders_region")], [[⟨("merged_query_0", "orders_day"), ("merged_query_1", "visits_day"), true⟩]]) := by
  decide +kernel

example : MappingsUsed arbMapped := by
  intro q e r h p hp
  simp only [arbMapped, Except.ok.injEq] at h
  subst h
  split at hp <;> simp only [List.mem_singleton] at hp <;> subst hp
  · rename_i hq
    exact ⟨"orders.region", by simp, .inl (by rw [if_pos hq]; simp)⟩
  · rename_i hq
    exact ⟨"visits.area", by simp, .inr (.inl (by rw [if_neg hq]; simp))⟩

/-- `area` is mapped in the second query, but used in a condition only: it cannot be joined on. -/
example : arbQuery arbMapped (mappedItems [.dict (.str "area") (.str "area")]) [] [] = .error .join ∧
    ∀ r col, arbMapped.resolve ⟨["visits.count"], ["visits.day"], [⟨"area", "area"⟩], [], none, ""⟩ ["area"] = .ok r →
      ¬ NamesDimension arbMapped r "area" col := by
  refine ⟨by decide +kernel, ?_⟩
  intro r col h
  simp only [arbMapped, Except.ok.injEq] at h
  subst h
  rintro (⟨fields, h1, h2, h3⟩ | ⟨h1, -⟩)
  · simp [dictGet] at h1 h3
    subst h1 h3
    simp at h2
  · simp [dictGet] at h1

/-- A second query without join fields. -/
example : ¬ WellFormedMerge (mappedItems []) := by
  intro h
  obtain ⟨a, ms, ds, h1, -, -, -, -, h2⟩ := h 1 _ rfl
  obtain ⟨js, h3, h4, -⟩ := h2 (by omega)
  cases h1
  cases h3
  exact h4 rfl

end ML
