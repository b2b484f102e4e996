import Verif.FieldCheck.Props
/-
C62: a project of fields about which validation reports nothing: every reference leads to a field. Circular references are not found.
-/
set_option autoImplicit false
namespace ML
open Spec

/-- A definition has one type. -/
theorem type_unique {d : FDef} {t u : String} (h : Given d "type" (.str t)) (h' : Given d "type" (.str u)) : t = u := by
  have := given_unique h h'
  exact Yaml.str.inj this

theorem namesOfValue_text {v : Option Yaml} {s : SqlNames} (h : namesOfValue v = some s) : ∃ t, v = some (.str t) ∧ t ≠ "" := by
  cases v with
  | none => cases h
  | some v =>
    cases v with
    | str t =>
      refine ⟨t, rfl, ?_⟩
      rintro rfl
      simp [namesOfValue] at h
    | _ => cases h

/-- The ends of a field, when both have references to read. -/
theorem end_given {k : String} {d : FDef} {s : SqlNames} (h : namesOfValue (cleanText d k) = some s) :
    ∃ t, Given d k (.str t) := by
  obtain ⟨t, ht, -⟩ := namesOfValue_text h
  unfold cleanText at ht
  cases hg : dictGet d k with
  | none => rw [hg] at ht; cases ht
  | some v =>
    rw [hg] at ht
    cases v with
    | str t' => exact ⟨t', hg⟩
    | _ => cases ht

/-- A definition without SQL and `case` that is not a count has no SQL. -/
theorem ownSql_none {env : CheckEnv} {name : String} {d : FDef} (hs : ¬ HasKey d "sql") (hc : ¬ HasKey d "case")
    (ht : ¬ Given d "type" (.str "count")) : ownSql env name d = .ok none := by
  have get : ∀ k, k ≠ "filters" → ¬ HasKey d k → dictGet (qualifyFilters env.view d) k = none := by
    intro k hk hn
    rw [dictGet_qualifyFilters _ _ _ hk]
    cases h : dictGet d k with
    | none => rfl
    | some v => exact absurd ⟨v, h⟩ hn
  have htt : ¬ textAt (qualifyFilters env.view d) "type" = some "count" := by
    rw [textAt_qualifyFilters _ _ _ (by decide), textAt_iff]; exact ht
  simp [ownSql, fieldSql, sqlBody, startSql, get _ (by decide) hs, get _ (by decide) hc, htt]

/-- A filter whose field has the view's name in front. -/
def Spec.qualifiedFilter (view : String) (f : FDef) : FDef :=
  match dictGet f "field" with
  | some (.str s) => dictSet f "field" (.str (qualifyRef view s))
  | _ => f

/-- C62: the SQL that is validated. Without filters and windows it is the text of the definition with its references in lower case; a yes or no
has parentheses around it; a tier is the text `CASE` makes of it. When the list of filters has an element that is no dictionary, the text
is validated as it is written; so it is when `filters` is a text. With filters it is the SQL the filters make of the text, all of them but
those on the field itself, their fields with the view's name in front. -/
theorem C62_sql (env : CheckEnv) (name : String) (d : FDef) (t : String) (hs : Given d "sql" (.str t)) :
    (¬ HasKey d "filters" → ¬ HasKey d "non_additive_dimension" → ¬ Given d "type" (.str "tier") → ¬ Given d "type" (.str "yesno") →
      ownSql env name d = .ok (some (.str (cleanSql t)))) ∧
    (¬ HasKey d "filters" → ¬ HasKey d "non_additive_dimension" → Given d "type" (.str "yesno") →
      ownSql env name d = .ok (some (.str (cleanSql ("(" ++ env.shown (.str t) ++ ")"))))) ∧
    (∀ l, ¬ HasKey d "filters" → ¬ HasKey d "non_additive_dimension" → Given d "type" (.str "tier") → Given d "tiers" (.list l) → l ≠ [] →
      ownSql env name d = .ok (some (.str (cleanSql (env.tierSql (.str t) l))))) ∧
    (∀ l f, Given d "filters" (.list l) → f ∈ l → ¬ Dictionary f → t ≠ "*" →
      ownSql env name d = .ok (some (.str t))) ∧
    (∀ w, Given d "filters" (.str w) → w ≠ "" → t ≠ "*" → ownSql env name d = .ok (some (.str t))) ∧
    (∀ (fs : List FDef) (r : String), Given d "filters" (.list (fs.map .dict)) → fs ≠ [] → ¬ HasKey d "non_additive_dimension" →
      ¬ Given d "type" (.str "tier") → ¬ Given d "type" (.str "yesno") → t ≠ "*" →
      env.filterSql (.str t) ((fs.map (qualifiedFilter env.view)).filter (fun f => textAt f "field" ≠ some name)) none = .ok r →
      ownSql env name d = .ok (some (.str (cleanSql r)))) := by
  have hs' : dictGet (qualifyFilters env.view d) "sql" = some (.str t) := by rw [dictGet_qualifyFilters _ _ _ (by decide)]; exact hs
  have no : ∀ k, ¬ HasKey d k → dictGet d k = none := by
    intro k hk
    cases h : dictGet d k with
    | none => rfl
    | some v => exact absurd ⟨v, h⟩ hk
  have plain : ¬ HasKey d "filters" → ¬ HasKey d "non_additive_dimension" →
      filteredSql env name (qualifyFilters env.view d) (.str t) = .ok (.str t) := by
    intro hf hn
    have h1 : qualifyFilters env.view d = d := by unfold qualifyFilters; rw [no _ hf]
    rw [h1]
    simp [filteredSql, no _ hf, truthyOpt, nonAdditive, no _ hn]
  have type : ∀ w, Given d "type" (.str w) → textAt (qualifyFilters env.view d) "type" = some w := by
    intro w hw; rw [textAt_qualifyFilters _ _ _ (by decide), textAt_iff]; exact hw
  have notType : ∀ w, ¬ Given d "type" (.str w) → ¬ textAt (qualifyFilters env.view d) "type" = some w := by
    intro w hw; rw [textAt_qualifyFilters _ _ _ (by decide), textAt_iff]; exact hw
  refine ⟨?_, ?_, ?_, ?_, ?_, ?_⟩
  · intro hf hn h1 h2
    simp [ownSql, fieldSql, sqlBody, startSql, hs', plain hf hn, tieredSql, finishSql, notType _ h1, notType _ h2]
  · intro hf hn h1
    simp [ownSql, fieldSql, sqlBody, startSql, hs', plain hf hn, tieredSql, finishSql, type _ h1]
  · intro l hf hn h1 h2 h3
    have h2' : dictGet (qualifyFilters env.view d) "tiers" = some (.list l) := by rw [dictGet_qualifyFilters _ _ _ (by decide)]; exact h2
    simp [ownSql, fieldSql, sqlBody, startSql, hs', plain hf hn, tieredSql, finishSql, type _ h1, h2', h3]
  · intro l f hf hm hfd ht
    have hq : dictGet (qualifyFilters env.view d) "filters" = some (.list (l.map (qualifyFilter env.view))) := by
      unfold qualifyFilters
      rw [show dictGet d "filters" = _ from hf]
      simp only
      rw [dictGet_set, if_pos rfl]
    have bad : ∀ l : List Yaml, f ∈ l → filtersToApply name (l.map (qualifyFilter env.view)) = .error .attributeError := by
      intro l hm
      induction l with
      | nil => cases hm
      | cons v l ih =>
        rcases List.mem_cons.mp hm with rfl | hm'
        · cases f with
          | dict q => exact absurd ⟨q, rfl⟩ hfd
          | _ => rfl
        · rw [List.map_cons]
          cases v with
          | dict q =>
            obtain ⟨q', hq'⟩ : ∃ q', qualifyFilter env.view (.dict q) = .dict q' := by
              simp only [qualifyFilter]
              split <;> exact ⟨_, rfl⟩
            rw [hq', filtersToApply, ih hm']
          | _ => rfl
    have hne : l ≠ [] := by rintro rfl; cases hm
    simp [ownSql, fieldSql, sqlBody, startSql, hs', filteredSql, hq, truthyOpt, Yaml.truthy, hne, Yaml.text?, ht, filtersOf, bad l hm]
  · intro w hf hw ht
    have hq : dictGet (qualifyFilters env.view d) "filters" = some (.str w) := by
      unfold qualifyFilters
      rw [show dictGet d "filters" = _ from hf]
      exact hf
    simp [ownSql, fieldSql, sqlBody, startSql, hs', filteredSql, hq, truthyOpt, Yaml.truthy, hw, Yaml.text?, ht, filtersOf]
  · intro fs r hf hne hn h1 h2 ht hr
    have hq : dictGet (qualifyFilters env.view d) "filters" = some (.list ((fs.map Yaml.dict).map (qualifyFilter env.view))) := by
      unfold qualifyFilters
      rw [show dictGet d "filters" = _ from hf]
      simp only
      rw [dictGet_set, if_pos rfl]
    have hn' : dictGet (qualifyFilters env.view d) "non_additive_dimension" = none := by
      rw [dictGet_qualifyFilters _ _ _ (by decide)]; exact no _ hn
    have kept : ∀ fs : List FDef, filtersToApply name ((fs.map Yaml.dict).map (qualifyFilter env.view)) =
        .ok ((fs.map (qualifiedFilter env.view)).filter (fun f => textAt f "field" ≠ some name)) := by
      intro fs
      induction fs with
      | nil => rfl
      | cons f fs ih =>
        have hqf : qualifyFilter env.view (.dict f) = .dict (qualifiedFilter env.view f) := by
          simp only [qualifyFilter, qualifiedFilter]
          cases dictGet f "field" with
          | none => rfl
          | some v => cases v <;> rfl
        rw [List.map_cons, List.map_cons, hqf, filtersToApply, ih, List.map_cons, List.filter_cons]
        by_cases hc : textAt (qualifiedFilter env.view f) "field" = some name <;> simp [hc]
    have hemp : (List.map (qualifyFilter env.view) (List.map Yaml.dict fs)) ≠ [] := by simpa using hne
    have hb : filteredSql env name (qualifyFilters env.view d) (.str t) = .ok (.str r) := by
      have htr : truthyOpt (some (Yaml.list (List.map (qualifyFilter env.view) (List.map Yaml.dict fs)))) = true := by
        simp [truthyOpt, Yaml.truthy, hne]
      have h0 : ¬ (Yaml.str t).text? = some "*" := by simpa [Yaml.text?] using ht
      unfold filteredSql
      rw [hq, htr, if_pos rfl]
      simp only [if_neg h0, filtersOf, kept, nonAdditive, hn', hr]
      rfl
    simp [ownSql, fieldSql, sqlBody, startSql, hs', hb, tieredSql, finishSql, notType _ h1, notType _ h2]

/-- Cases for each part. -/
example : ownSql fcEnv "total" [("sql", .str "${Price}")] = .ok (some (.str "${price}")) ∧
    ownSql fcEnv "total" [("sql", .str "${Price}"), ("filters", .list [.null])] = .ok (some (.str "${Price}")) ∧
    (∃ r, fcEnv.filterSql (.str "${Price}") ([[("field", .str "orders.state")]].map (qualifiedFilter fcEnv.view)) none = .ok r) :=
  ⟨by rfl, by rfl, _, rfl⟩

/-- In a field about which nothing is reported, every name in the SQL leads to a field. -/
theorem validated_found {get : UGet} {g : UField} {env : CheckEnv} {name : String} {d : FDef} (hv : Validated get g env name d)
    (n : String) (hn : n ∈ sqlNamesOf g) (htab : n ≠ "TABLE") : ¬ Unknown (get g.view n) := by
  have no := clean_problems hv.named hv.clean
  obtain ⟨s, hs, e1, e2, e3⟩ := hv.sql
  generalize hft : (textAt d "field_type").getD "" = ft at no
  have hkey : ∀ k, HasKey d k → k ∈ validKeys ft := by
    intro k hk
    by_contra hc
    cases no _ (.plain (.key hk (fun h => hc ((validKeys_iff _ _).mpr h))))
  have hkind : ft ∈ ["dimension", "dimension_group", "measure"] := by
    by_contra hc
    cases no _ (.plain (.fieldType hc))
  -- a text of the SQL that has been checked
  have own : ∀ t, (∀ p, SqlProblem env name d (some (.str t)) t p → HasProblem env name ft d p) → s = some (.str t) →
      ¬ Given d "type" (.str "cumulative") → n ∈ readNames (checkedField env name d (some (.str t))) → ¬ Unknown (get g.view n) := by
    intro t hp he hc hm hu
    have htm : ¬ Templated (checkedField env name d (some (.str t))) := fun h => by cases no _ (hp _ (.template h))
    rw [← hv.lookUp, hv.view] at hu
    cases no _ (hp _ (.dead htm hc (.here hm htab hu)))
  have ends : ∀ {a b : SqlNames}, g.sqlStart = some a → g.sqlEnd = some b → ft = "dimension_group" := by
    intro a b ha hb
    rw [e2] at ha
    obtain ⟨t, ht⟩ := end_given (show namesOfValue (cleanText d "sql_start") = some a from ha)
    have := hkey _ ⟨_, ht⟩
    simp only [List.mem_cons, List.not_mem_nil, or_false] at hkind
    rcases hkind with rfl | rfl | rfl
    · exact absurd this (by decide)
    · rfl
    · exact absurd this (by decide)
  -- the SQL text is what is read
  have read : ∀ (q : SqlNames), g.sql = some q → (∀ a b, g.sqlStart = some a → g.sqlEnd = some b → ¬ Given d "type" (.str "duration")) →
      readNames (checkedField env name d s) = q.names := by
    intro q hq hne
    rw [e1] at hq
    unfold readNames
    rw [hq, ← e2, ← e3]
    cases ha : g.sqlStart with
    | none => rfl
    | some a =>
      cases hb : g.sqlEnd with
      | none => rfl
      | some b =>
        have : ¬ (checkedField env name d s).type = "duration" := by
          intro h
          refine hne a b ha hb ((textAt_iff _ _ _).mp ?_)
          have h : (textAt d "type").getD "" = "duration" := h
          cases ht : textAt d "type" with
          | none => rw [ht] at h; exact absurd h (by decide)
          | some t => rw [ht] at h; rw [show t = "duration" from h]
        simp only [if_neg this]
        rfl
  unfold sqlNamesOf at hn
  cases hq : g.sql with
  | some q =>
    rw [hq] at hn
    simp only at hn
    have hsq : namesOfValue s = some q := by rw [← hq, e1]; rfl
    obtain ⟨t, ht, -⟩ := namesOfValue_text hsq
    subst ht
    simp only [List.mem_cons, List.not_mem_nil, or_false] at hkind
    rcases hkind with rfl | rfl | rfl
    · have hc : ¬ HasKey d "case" := fun hc => by cases no _ (.dimension rfl (.case hc))
      have hg : GivesText d "sql" := by by_contra h; cases no _ (.dimension rfl (.noSql h hc))
      have hcum : ¬ Given d "type" (.str "cumulative") := by
        intro h
        cases no _ (.dimension rfl (.type (fun v hv' => by
          cases given_unique h hv'
          rintro ⟨w, hw, e⟩; cases e; revert hw; decide)))
      refine own t (fun p hp => .dimension rfl (.sql hg hc hs hp)) rfl hcum ?_
      rw [read q hq (fun a b ha hb => absurd (ends ha hb) (by decide))]
      exact hn
    · by_cases htime : Given d "type" (.str "time")
      · have hg : GivesText d "sql" := by
          by_cases hk : HasKey d "sql"
          · obtain ⟨v, hv'⟩ := hk
            by_contra hng
            cases no _ (.group rfl (.sqlKind htime ⟨v, hv', by rintro ⟨u, rfl⟩; exact hng ⟨u, hv'⟩⟩))
          · exfalso
            have := ownSql_none (env := env) (name := name) hk (fun hc => absurd (hkey _ hc) (by decide))
              (fun hc => absurd (type_unique htime hc) (by decide))
            rw [this] at hs; cases hs
        refine own t (fun p hp => .group rfl (.sql htime hg hs hp)) rfl (fun hc => absurd (type_unique htime hc) (by decide)) ?_
        rw [read q hq (fun a b ha hb hd => absurd (type_unique htime hd) (by decide))]
        exact hn
      · have hdur : Given d "type" (.str "duration") := by
          by_contra hd
          cases no _ (.group rfl (.type (fun v hv' => by
            rintro ⟨w, hw, rfl⟩
            simp only [List.mem_cons, List.not_mem_nil, or_false] at hw
            rcases hw with rfl | rfl
            · exact htime hv'
            · exact hd hv')))
        have hk : ¬ HasKey d "sql" := fun hk => by cases no _ (.group rfl (.noSql hdur hk))
        have := ownSql_none (env := env) (name := name) hk (fun hc => absurd (hkey _ hc) (by decide))
          (fun hc => absurd (type_unique hdur hc) (by decide))
        rw [this] at hs; cases hs
    · by_cases hcum : Given d "type" (.str "cumulative")
      · have := ownSql_none (env := env) (name := name) (hv.cumulative hcum) (fun hc => absurd (hkey _ hc) (by decide))
          (fun hc => absurd (type_unique hcum hc) (by decide))
        rw [this] at hs; cases hs
      · have hg : GivesText d "sql" := by
          by_cases hk : HasKey d "sql"
          · obtain ⟨v, hv'⟩ := hk
            by_contra hng
            cases no _ (.measure rfl (.sqlKind hcum ⟨v, hv', by rintro ⟨u, rfl⟩; exact hng ⟨u, hv'⟩⟩))
          · cases no _ (.measure rfl (.noSql hcum hk))
        refine own t (fun p hp => .measure rfl (.sql hcum hg hs hp)) rfl hcum ?_
        rw [read q hq (fun a b ha hb => absurd (ends ha hb) (by decide))]
        exact hn
  | none =>
    rw [hq] at hn
    cases ha : g.sqlStart with
    | none => rw [ha] at hn; cases hn
    | some a =>
      cases hb : g.sqlEnd with
      | none => rw [ha, hb] at hn; cases hn
      | some b =>
        rw [ha, hb] at hn
        simp only at hn
        have := ends ha hb
        subst this
        have hsn : namesOfValue s = none := by rw [← hq, e1]; rfl
        have htime : ¬ Given d "type" (.str "time") := fun ht => hv.time ht ⟨s, hs, hsn⟩
        have hdur : Given d "type" (.str "duration") := by
          by_contra hd
          cases no _ (.group rfl (.type (fun v hv' => by
            rintro ⟨w, hw, rfl⟩
            simp only [List.mem_cons, List.not_mem_nil, or_false] at hw
            rcases hw with rfl | rfl
            · exact htime hv'
            · exact hd hv')))
        obtain ⟨t, ht⟩ := end_given (show namesOfValue (cleanText d "sql_start") = some a by rw [← ha, e2]; rfl)
        have hp : ∀ p, SqlProblem env name d s (cleanSql t) p → p = .noDate :=
          fun p hp => no _ (.group rfl (.endSql (by simp) hdur ht hs hp))
        have htm : ¬ Templated (checkedField env name d s) := by
          rintro ⟨q, h1, -⟩
          rw [← e1, hq] at h1; cases h1
        have hr : readNames (checkedField env name d s) = a.names ++ b.names := by
          have htype : (checkedField env name d s).type = "duration" := by
            show (textAt d "type").getD "" = "duration"
            rw [(textAt_iff _ _ _).mpr hdur]; rfl
          unfold readNames
          rw [← e2, ← e3, ha, hb]
          simp [htype]
        intro hu
        rw [← hv.lookUp, hv.view] at hu
        cases hp _ (.dead htm (fun hc => absurd (type_unique hdur hc) (by decide)) (.here (by rw [hr]; exact hn) htab hu))

theorem neededLoop_recursion {get : UGet} {deep : UField → Res (List String)} {view : String}
    (hdeep : ∀ n g, get view n = .ok g → ∀ e, deep g = .error e → e = .recursion) :
    ∀ {ns : List String} {e : Err}, (∀ n ∈ ns, n ≠ "TABLE" → ∃ g, get view n = .ok g) → neededLoop get deep view ns = .error e → e = .recursion
  | [], e, _, h => by cases h
  | n :: ns, e, hn, h => by
    simp only [neededLoop] at h
    have ih := fun e (h : neededLoop get deep view ns = .error e) =>
      neededLoop_recursion hdeep (fun m hm => hn m (List.mem_cons_of_mem _ hm)) h
    by_cases ht : n = "TABLE"
    · rw [if_pos ht] at h; exact ih e h
    · rw [if_neg ht] at h
      obtain ⟨g, hg⟩ := hn n List.mem_cons_self ht
      rw [hg] at h
      simp only at h
      cases hd : deep g with
      | error e' => rw [hd] at h; cases h; exact hdeep n g hg _ hd
      | ok vs =>
        rw [hd] at h
        simp only at h
        cases hl : neededLoop get deep view ns with
        | error e' => rw [hl] at h; cases h; exact ih _ hl
        | ok ws => rw [hl] at h; cases h

/-- C62 (j): in a project where validation reports nothing about any field, working out the views a field needs never ends with a field
that does not exist; only circular (or endless) references can stop it. -/
theorem C62_project (get : UGet) (hget : ∀ v n e, get v n = .error e → e = .accessDenied)
    (hall : ∀ v n g, get v n = .ok g → ∃ env name d, Validated get g env name d)
    (f : UField) (env : CheckEnv) (name : String) (d : FDef) (hf : Validated get f env name d) (k : ℕ) (e : Err)
    (h : requiredViews get k f = .error e) : e = .recursion := by
  induction k generalizing f env name d e with
  | zero => cases h; rfl
  | succ k ih =>
    have hdeep : ∀ n g, get f.view n = .ok g → ∀ e, requiredViews get k g = .error e → e = .recursion := by
      intro n g hg e he
      obtain ⟨env', name', d', hv⟩ := hall _ _ _ hg
      exact ih g env' name' d' hv e he
    have hfound : ∀ n ∈ sqlNamesOf f, n ≠ "TABLE" → ∃ g, get f.view n = .ok g := by
      intro n hn ht
      cases hg : get f.view n with
      | ok g => exact ⟨g, rfl⟩
      | error e =>
        refine absurd ?_ (validated_found hf n hn ht)
        rw [hg, hget _ _ _ hg]; rfl
    unfold requiredViews at h
    unfold sqlNamesOf at hfound
    cases hq : f.sql with
    | some q =>
      rw [hq] at h hfound
      simp only at h hfound
      cases hl : neededLoop get (requiredViews get k) f.view q.names with
      | error e' => rw [hl] at h; cases h; exact neededLoop_recursion hdeep hfound hl
      | ok vs => rw [hl] at h; cases h
    | none =>
      rw [hq] at h hfound
      simp only at h
      cases ha : f.sqlStart with
      | none => rw [ha] at h; cases h
      | some a =>
        cases hb : f.sqlEnd with
        | none => rw [ha, hb] at h; cases h
        | some b =>
          rw [ha, hb] at h hfound
          simp only at h hfound
          cases hl : neededLoop get (requiredViews get k) f.view a.names with
          | error e' =>
            rw [hl] at h; cases h
            exact neededLoop_recursion hdeep (fun n hn => hfound n (List.mem_append_left _ hn)) hl
          | ok vs =>
            rw [hl] at h
            simp only at h
            cases hl' : neededLoop get (requiredViews get k) f.view b.names with
            | error e' =>
              rw [hl'] at h; cases h
              exact neededLoop_recursion hdeep (fun n hn => hfound n (List.mem_append_right _ hn)) hl'
            | ok ws => rw [hl'] at h; cases h

/-! ### A project of three fields -/

/-- The prices of the example. -/
def fcPriceDef : FDef :=
  [("name", .str "price"), ("field_type", .str "dimension"), ("type", .str "number"), ("sql", .str "${TABLE}.price")]

/-- The look-ups of the project with `created`, `price` and `total`. -/
theorem fcEnv_price : Validated fcEnv.get fcPrice fcEnv "price" fcPriceDef where
  lookUp := rfl
  view := rfl
  named := rfl
  clean := ⟨[], by decide +kernel, by simp⟩
  sql := ⟨some (.str "${TABLE}.price"), by rfl, by decide +kernel, rfl, rfl⟩
  cumulative := fun h => absurd (type_unique h (show Given fcPriceDef "type" (.str "number") from rfl)) (by decide)
  time := fun h => absurd (type_unique h (show Given fcPriceDef "type" (.str "number") from rfl)) (by decide)

theorem fcEnv_date : Validated fcEnv.get fcDate fcEnv "created" fcGroup where
  lookUp := rfl
  view := rfl
  named := rfl
  clean := ⟨[], by decide +kernel, by simp⟩
  sql := ⟨some (.str "${TABLE}.created_at"), by rfl, by decide +kernel, rfl, rfl⟩
  cumulative := fun h => absurd (type_unique h (show Given fcGroup "type" (.str "time") from rfl)) (by decide)
  time := by
    rintro - ⟨s, hs, hn⟩
    have : ownSql fcEnv "created" fcGroup = .ok (some (.str "${TABLE}.created_at")) := by rfl
    rw [this] at hs
    cases hs
    revert hn
    decide +kernel

/-- Every field of the project of the example is validated, and the views of the sum are found. -/
example : (∀ v n g, fcEnv.get v n = .ok g → ∃ env name d, Validated fcEnv.get g env name d) ∧
    Validated fcEnv.get ⟨"orders", "total", .measure, "sum", some ⟨["price"], false⟩, none, none, none, none, none, none⟩ fcEnv "total" fcSum := by
  refine ⟨fun v n g h => ?_, ?_⟩
  · simp only [fcEnv] at h
    split at h
    · cases h; exact ⟨_, _, _, fcEnv_date⟩
    · split at h
      · cases h; exact ⟨_, _, _, fcEnv_price⟩
      · cases h
  · exact ⟨rfl, rfl, rfl, ⟨[], by decide +kernel, by simp⟩, ⟨some (.str "${price}"), by rfl, by decide +kernel, rfl, rfl⟩,
      (by intro h; exact absurd (type_unique h (show Given fcSum "type" (.str "sum") from rfl)) (by decide)),
      (by intro h; exact absurd (type_unique h (show Given fcSum "type" (.str "sum") from rfl)) (by decide))⟩

/-! ### Circular references -/

/-- `orders.a`, made of `${b}`. -/
def loopA : UField := ⟨"orders", "a", .dimension, "string", some ⟨["b"], false⟩, none, none, none, none, none, none⟩
/-- `orders.b`, made of `${a}`. -/
def loopB : UField := ⟨"orders", "b", .dimension, "string", some ⟨["a"], false⟩, none, none, none, none, none, none⟩

/-- A view with the two fields. -/
def loopEnv : CheckEnv := { fcEnv with
  get := fun _ n => if n = "a" then .ok loopA else if n = "b" then .ok loopB else .error .accessDenied }

/-- The definition of a text made of another one. -/
def loopDef (name other : String) : FDef :=
  [("name", .str name), ("field_type", .str "dimension"), ("type", .str "string"), ("sql", .str ("${" ++ other ++ "}")),
   ("searchable", .bool true)]

/-- **C62 fails** for circular references: nothing is reported about two dimensions that refer to each other, and the views they need are
never found, however deep the stack. -/
theorem C62_cycle : collectErrors loopEnv (loopDef "a" "b") = .ok [] ∧ collectErrors loopEnv (loopDef "b" "a") = .ok [] ∧
    ∀ k, requiredViews loopEnv.get k loopA = .error .recursion := by
  refine ⟨by decide +kernel, by decide +kernel, fun k => ?_⟩
  have : requiredViews loopEnv.get k loopA = .error .recursion ∧ requiredViews loopEnv.get k loopB = .error .recursion := by
    induction k with
    | zero => exact ⟨rfl, rfl⟩
    | succ k ih =>
      have ha : loopEnv.get "orders" "a" = .ok loopA := rfl
      have hb : loopEnv.get "orders" "b" = .ok loopB := rfl
      constructor
      · simp [requiredViews, loopA, neededLoop, hb, ih.2]
      · simp [requiredViews, loopB, neededLoop, ha, ih.1]
  exact this.1

/-- **C62 fails** for cumulative metrics: validation does not look at their SQL, and working out the views they need ends with a field that
does not exist. -/
theorem C62_cumulative_sql :
    let d : FDef := [("name", .str "run"), ("field_type", .str "measure"), ("type", .str "cumulative"), ("measure", .str "total"),
      ("sql", .str "${nowhere}")]
    let total : UField := ⟨"orders", "total", .measure, "sum", some ⟨["price"], false⟩, none, none, none, none, none, none⟩
    let env : CheckEnv := { fcEnv with get := fun v n => if n = "total" then .ok total else fcEnv.get v n }
    collectErrors env d = .ok [] ∧ ∃ s, ownSql env "run" d = .ok s ∧ requiredViews env.get 5 (checkedField env "run" d s) = .error .accessDenied :=
  ⟨by decide +kernel, some (.str "${nowhere}"), by rfl, by decide +kernel⟩

end ML
