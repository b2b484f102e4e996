import Verif.FunnelTable.Spec
import Verif.Funnel.Props
import Verif.Answer.Props
import Verif.SymAgg.Props
/-
Lemmas on funnel queries.
-/
set_option autoImplicit false
namespace ML
open Spec

section
variable {ρ : Type}

theorem scalar_congr (E E' : Engine ρ) (hh : E.hash = E'.hash) (r : ρ) (s : Scalar) (h : ∀ c ∈ s.texts, E.value r c = E'.value r c) :
    s.eval E r = s.eval E' r := by
  induction s with
  | raw s => exact h s (by simp [Scalar.texts])
  | adjusted s => simp only [Scalar.eval, h s (by simp [Scalar.texts])]
  | hashed p => simp only [Scalar.eval, h p (by simp [Scalar.texts]), hh]
  | plus a b iha ihb =>
    simp only [Scalar.eval]
    rw [iha (fun c hc => h c (by simp [Scalar.texts, hc])), ihb (fun c hc => h c (by simp [Scalar.texts, hc]))]
  | keyIfValue s p => simp only [Scalar.eval, h s (by simp [Scalar.texts]), h p (by simp [Scalar.texts])]

theorem agg_congr (E E' : Engine ρ) (hh : E.hash = E'.hash) (rows : List ρ) (a : Agg) (h : ∀ c ∈ a.texts, ∀ r ∈ rows, E.value r c = E'.value r c) :
    a.eval E rows = a.eval E' rows := by
  have key : ∀ s : Scalar, (∀ c ∈ s.texts, ∀ r ∈ rows, E.value r c = E'.value r c) → rows.filterMap (s.eval E) = rows.filterMap (s.eval E') := by
    intro s hs
    refine List.filterMap_congr ?_
    intro r hr
    exact scalar_congr E E' hh r s (fun c hc => hs c hc r hr)
  induction a with
  | sum s => simp only [Agg.eval, key s h]
  | sumDistinct s => simp only [Agg.eval, key s h]
  | count s => simp only [Agg.eval, key s h]
  | countDistinct s => simp only [Agg.eval, key s h]
  | countDistinctParen s => simp only [Agg.eval, key s h]
  | avg s => simp only [Agg.eval, key s h]
  | median s => simp only [Agg.eval, key s h]
  | max s => simp only [Agg.eval, key s h]
  | min s => simp only [Agg.eval, key s h]
  | minus a b iha ihb =>
    simp only [Agg.eval]
    rw [iha (fun c hc => h c (by simp [Agg.texts, hc])), ihb (fun c hc => h c (by simp [Agg.texts, hc]))]
  | scaledBack a iha => simp only [Agg.eval]; rw [iha h]
  | nullIfZero a iha => simp only [Agg.eval]; rw [iha h]
  | ratio a b iha ihb =>
    simp only [Agg.eval]
    rw [iha (fun c hc => h c (by simp [Agg.texts, hc])), ihb (fun c hc => h c (by simp [Agg.texts, hc]))]

/-- The aggregate of a measure names its column, its key or its distinct key only. -/
theorem agg_texts {m : Measure} {w : Warehouse} {fpk : FunctionalPk} {a : Agg} (h : aggregateSql m w fpk = .ok a) {id pk : String} (hp : m.pk = some (id, pk))
    (hd : m.distinctKey = pk) : ∀ c ∈ a.texts, c = m.sql ∨ c = pk := by
  have hs : ∀ c ∈ (symSum m.sql pk).texts, c = m.sql ∨ c = pk := by
    intro c hc
    simpa [symSum, Agg.texts, Scalar.texts] using hc
  have hcn : ∀ c ∈ (symCount m.sql pk).texts, c = m.sql ∨ c = pk := by
    intro c hc
    simpa [symCount, Agg.texts, Scalar.texts] using hc
  have hpk : pkText m = pk := by simp [pkText, hp]
  have hr : ∀ c ∈ Agg.texts (.ratio (symSum m.sql pk) (symCount m.sql pk)), c = m.sql ∨ c = pk := by
    intro c hc
    rcases List.mem_append.mp (by simpa only [Agg.texts] using hc) with hc | hc
    · exact hs c hc
    · exact hcn c hc
  unfold aggregateSql at h
  rw [hpk, hd] at h
  have plain : ∀ s : Scalar, s = .raw m.sql → ∀ c ∈ s.texts, c = m.sql ∨ c = pk := by
    rintro s rfl c hc
    simp only [Scalar.texts, List.mem_singleton] at hc
    exact .inl hc
  cases ht : m.type <;> simp only [ht] at h
  all_goals ((try split_ifs at h) <;> (try split at h) <;> (try split_ifs at h) <;> (try cases h)) <;>
    first | exact hs | exact hcn | exact hr | exact plain _ rfl | skip

/-- Every list of rows has a choice of one row for each key. -/
theorem onePerKey_exists (key : ρ → Val) (rows : List ρ) : ∃ reps, OnePerKey key rows reps := by
  induction rows with
  | nil => exact ⟨[], by simp, by simp, by simp, by simp⟩
  | cons r rows ih =>
    obtain ⟨reps, h1, h2, h3, h4⟩ := ih
    by_cases hr : key r = none ∨ key r ∈ reps.map key
    · refine ⟨reps, fun x hx => List.mem_cons_of_mem _ (h1 x hx), h2, h3, ?_⟩
      intro x hx hk
      rcases List.mem_cons.mp hx with rfl | hx
      · rcases hr with hr | hr
        · exact absurd hr hk
        · obtain ⟨y, hy, e⟩ := List.mem_map.mp hr
          exact ⟨y, hy, e⟩
      · exact h4 x hx hk
    · rw [not_or] at hr
      refine ⟨r :: reps, ?_, ?_, ?_, ?_⟩
      · intro x hx
        rcases List.mem_cons.mp hx with rfl | hx
        · simp
        · exact List.mem_cons_of_mem _ (h1 x hx)
      · rw [List.map_cons, List.nodup_cons]
        exact ⟨hr.2, h2⟩
      · intro x hx
        rcases List.mem_cons.mp hx with rfl | hx
        · exact hr.1
        · exact h3 x hx
      · intro x hx hk
        rcases List.mem_cons.mp hx with rfl | hx
        · exact ⟨x, by simp, rfl⟩
        · obtain ⟨y, hy, e⟩ := h4 x hx hk
          exact ⟨y, List.mem_cons_of_mem _ hy, e⟩

theorem onePerKey_same {key : ρ → Val} {rows rows' reps : List ρ} (h : OnePerKey key rows reps) (hs : ∀ r, r ∈ rows ↔ r ∈ rows') : OnePerKey key rows' reps :=
  ⟨fun r hr => (hs r).mp (h.sub r hr), h.once, h.nonnull, fun r hr => h.all r ((hs r).mpr hr)⟩

/-- A column that is found in the raw columns of fields told apart by their labels is that of its field. -/
theorem base_value {E : Engine ρ} {fs : List AnsField} {f : AnsField} (hl : ∀ g ∈ fs, g.label = f.label → g = f)
    (hc : columnOf (rawSelect fs) f.label ≠ none) (r : ρ) : baseValue E (rawSelect fs) r f.label = rawValueOf E f r := by
  obtain ⟨⟨i, x⟩, hx⟩ := Option.ne_none_iff_exists'.mp hc
  unfold baseValue
  rw [hx]
  have hm := List.mem_of_getElem? (columnOf_some hx).1
  have hsub : ∀ (l : List (SqlExpr × String)) (seen : List String), ∀ c ∈ dedupSelect seen l, c ∈ l := by
    intro l
    induction l with
    | nil => simp [dedupSelect]
    | cons c l ih =>
      intro seen d hd
      rw [dedupSelect] at hd
      split_ifs at hd
      · exact List.mem_cons_of_mem _ (ih _ d hd)
      · rcases List.mem_cons.mp hd with rfl | hd
        · simp
        · exact List.mem_cons_of_mem _ (ih _ d hd)
  obtain ⟨g, hg, e⟩ := List.mem_map.mp (hsub _ _ _ hm)
  simp only [Prod.mk.injEq] at e
  have := hl g hg e.2
  subst this
  rw [← e.1]
  unfold rawExpr rawValueOf
  cases g.sql <;> rfl

/-- What a built statement is made of. -/
theorem buildFunnel_ok {P : FunnelProject} {w : Warehouse} {known : String → Bool} {q : FunnelQuestion} {s : FunnelStmt} (h : buildFunnel P w known q = .ok s) :
    ∃ fs dateField linkField metrics lookup gs,
      funnelFields P q = .ok (fs, dateField, linkField, metrics, lookup) ∧
      funnelBase P.toAnsProject w (lookup.map AnsField.view).dedup q.hasOrder fs q.wheres q.fieldOf = .ok s.base ∧
      funnelSql known q.window q.steps = .ok (s.steps, s.union) ∧
      getAll P.get (metrics ++ q.dimensions) = .ok gs ∧ funnelColumns P w gs = .ok s.columns ∧ havingColumns P.get q.having = .ok s.having ∧
      s.date = dateField.label ∧ s.person = linkField.label ∧ (s.compares = fun i => (P.get (q.fieldOf i)).map AnsField.label) ∧
      s.groupBy = (gs.filter (fun f => !f.isMeasure)).map AnsField.label ∧ s.limit = limitClause w q.limit := by
  unfold buildFunnel at h
  cases h1 : funnelFields P q with
  | error e => rw [h1] at h; cases h
  | ok x =>
    obtain ⟨fs, dateField, linkField, metrics, lookup⟩ := x
    rw [h1] at h
    dsimp only at h
    cases h2 : funnelBase P.toAnsProject w (lookup.map AnsField.view).dedup q.hasOrder fs q.wheres q.fieldOf with
    | error e => rw [h2] at h; cases h
    | ok base =>
      rw [h2] at h
      dsimp only at h
      cases h3 : funnelSql known q.window q.steps with
      | error e => rw [h3] at h; cases h
      | ok y =>
        obtain ⟨steps, union⟩ := y
        rw [h3] at h
        dsimp only at h
        cases h4 : getAll P.get (metrics ++ q.dimensions) with
        | error e => rw [h4] at h; cases h
        | ok gs =>
          rw [h4] at h
          dsimp only at h
          cases h5 : funnelColumns P w gs with
          | error e => rw [h5] at h; cases h
          | ok cols =>
            rw [h5] at h
            dsimp only at h
            cases h6 : havingColumns P.get q.having with
            | error e => rw [h6] at h; cases h
            | ok hv =>
              rw [h6] at h
              dsimp only at h
              cases h
              exact ⟨fs, dateField, linkField, metrics, lookup, gs, rfl, h2, rfl, h4, h5, rfl, rfl, rfl, rfl, rfl, rfl⟩

/-- The keys that are added are keys of views. -/
theorem enrichMetrics_keys {P : FunnelProject} {lookup : List AnsField} {ns : List String} {l ks : List AnsField} (h : enrichMetrics P lookup ns = .ok (l, ks)) :
    ∀ k ∈ ks, ∃ v, P.viewKey v = some k := by
  induction ns generalizing lookup l ks with
  | nil => rw [enrichMetrics] at h; cases h; simp
  | cons n ns ih =>
    rw [enrichMetrics] at h
    cases h1 : P.get n with
    | error e => rw [h1] at h; cases h
    | ok m =>
      rw [h1] at h
      dsimp only at h
      cases h2 : P.viewKey m.view with
      | none => rw [h2] at h; cases h
      | some k =>
        rw [h2] at h
        dsimp only at h
        split at h
        · cases h
        · rename_i l' ks' h3
          cases h
          intro x hx
          split_ifs at hx
          · exact ih h3 x hx
          · rcases List.mem_cons.mp hx with rfl | hx
            · exact ⟨_, h2⟩
            · exact ih h3 x hx

/-- The fields of the base query: all are fields of the project or keys of views; a date and a customer field; the metrics have views with keys. -/
theorem funnelFields_ok {P : FunnelProject} {q : FunnelQuestion} {fs : List AnsField} {dateField linkField : AnsField} {metrics : List String} {lookup : List AnsField}
    (h : funnelFields P q = .ok (fs, dateField, linkField, metrics, lookup)) :
    (∀ f ∈ fs, (∃ n, P.get n = .ok f) ∨ ∃ v, P.viewKey v = some f) ∧ metrics = q.metrics ++ setOf (q.having.map Prod.fst) ∧
    (∃ n, eventDate q.viewName (q.metrics.map q.dateOf) = .ok n ∧ P.get n = .ok dateField) ∧ (∃ n, P.link = .ok n ∧ P.get n = .ok linkField) ∧
    ∃ lk, enrichDims P.get q.lookup (q.dimensions ++ (match eventDate q.viewName (q.metrics.map q.dateOf), P.link with | .ok d, .ok l => [d, l] | _, _ => []) ++
        setOf (q.steps.flatten.map q.fieldOf)) = .ok lk ∧ ∃ ks, enrichMetrics P lk metrics = .ok (lookup, ks) := by
  unfold funnelFields at h
  cases h1 : eventDate q.viewName (q.metrics.map q.dateOf) with
  | error e => rw [h1] at h; cases h
  | ok date =>
    rw [h1] at h
    dsimp only at h
    cases h2 : P.get date with
    | error e => rw [h2] at h; cases h
    | ok df =>
      rw [h2] at h
      dsimp only at h
      cases h3 : P.link with
      | error e => rw [h3] at h; cases h
      | ok link =>
        rw [h3] at h
        dsimp only at h
        cases h4 : P.get link with
        | error e => rw [h4] at h; cases h
        | ok lf =>
          rw [h4] at h
          dsimp only at h
          cases h5 : enrichDims P.get q.lookup (q.dimensions ++ [date, link] ++ setOf (q.steps.flatten.map q.fieldOf)) with
          | error e => rw [h5] at h; cases h
          | ok lk =>
            rw [h5] at h
            dsimp only at h
            cases h6 : enrichMetrics P lk (q.metrics ++ setOf (q.having.map Prod.fst)) with
            | error e => rw [h6] at h; cases h
            | ok x =>
              obtain ⟨lk', keys⟩ := x
              rw [h6] at h
              dsimp only at h
              cases h7 : getAll P.get (q.dimensions ++ [date, link] ++ setOf (q.steps.flatten.map q.fieldOf)) with
              | error e => rw [h7] at h; cases h
              | ok ds =>
                rw [h7] at h
                dsimp only at h
                cases h8 : getAll P.get (q.metrics ++ setOf (q.having.map Prod.fst)) with
                | error e => rw [h8] at h; cases h
                | ok ms =>
                  rw [h8] at h
                  cases h
                  refine ⟨?_, rfl, ⟨_, rfl, h2⟩, ⟨_, rfl, h4⟩, lk, rfl, keys, h6⟩
                  intro f hf
                  rcases List.mem_append.mp hf with hf | hf
                  · rcases List.mem_append.mp hf with hf | hf
                    · obtain ⟨n, -, hn⟩ := mem_names (P := P.toAnsProject) (getAll_names.mp h7) hf
                      exact .inl ⟨n, hn⟩
                    · exact .inr (enrichMetrics_keys h6 f hf)
                  · obtain ⟨n, -, hn⟩ := mem_names (P := P.toAnsProject) (getAll_names.mp h8) hf
                    exact .inl ⟨n, hn⟩

/-- The base query: no ordering, its columns, its conditions. -/
theorem funnelBase_ok {P : AnsProject} {w : Warehouse} {views : List String} {o : Bool} {fs : List AnsField} {wheres : List FObj} {fieldOf : Nat → String} {b : Block}
    (h : funnelBase P w views o fs wheres fieldOf = .ok b) :
    o = false ∧ b.views = views ∧ b.select = rawSelect fs ∧ clauseText (parseFilterObject (.filters wheres) (accessText (P.access views))) = .ok b.whereText ∧
      ∀ i, b.cond i = match P.get (fieldOf i) with
        | .error e => .error e
        | .ok f => fieldExpr w (P.fpk views) f := by
  unfold funnelBase at h
  split_ifs at h with ho
  cases h1 : clauseText (parseFilterObject (.filters wheres) (accessText (P.access views))) with
  | error e => rw [h1] at h; cases h
  | ok wh =>
    rw [h1] at h
    dsimp only at h
    split at h
    · cases h
    · cases h
      exact ⟨by simpa using ho, rfl, rfl, rfl, fun i => rfl⟩

/-- The rows the base query keeps. -/
theorem base_keeps {P : AnsProject} {w : Warehouse} {views : List String} {o : Bool} {fs : List AnsField} {q : FunnelQuestion} {b : Block}
    (h : funnelBase P w views o fs q.wheres q.fieldOf = .ok b) (hw : WellFormedFilters q.wheres) (D : Db ρ) {rows kept : List ρ}
    (hk : KeepsItems D b b.whereText (rows.map (fun r => [r])) (kept.map (fun r => [r]))) :
    ∃ p : ρ → Bool, (∀ r, p r = true ↔ FunnelPasses D P w views q r) ∧ kept = rows.filter p := by
  obtain ⟨-, -, -, hwh, hcond⟩ := funnelBase_ok h
  obtain ⟨t, ht, hkk⟩ := clause_keeps (ρ := ρ) (P.access views) q.wheres hw
  rw [hwh] at ht
  cases ht
  obtain ⟨p, hp, he⟩ := (hkk D b _ _).mp hk
  rw [singles_filter] at he
  refine ⟨fun r => p [r], fun r => ?_, singles_inj he⟩
  have htr : b.truth D [r] = compared D P w (P.fpk views) q.fieldOf [r] :=
    truth_eq (q := ⟨[], [], [], [], [], [], [], [], .json [], none, false, q.fieldOf⟩) hcond D [r]
  rw [hp, htr]
  rfl

/-- The columns of a branch: one for each field. -/
theorem funnelColumns_ok {P : FunnelProject} {w : Warehouse} {gs : List AnsField} {cols : List (SqlExpr × String)} (h : funnelColumns P w gs = .ok cols) :
    List.Forall₂ (fun f c => c.2 = f.label ∧ (∀ s, f.sql = .dimension s → c.1 = .row f.label) ∧
      ∀ m, f.sql = .measure m → ∃ a, aggregateSql (aliasMeasure P f m) w .doesNotExist = .ok a ∧ c.1 = .agg a) gs cols := by
  induction gs generalizing cols with
  | nil => rw [funnelColumns] at h; cases h; exact .nil
  | cons f fs ih =>
    rw [funnelColumns] at h
    cases hs : f.sql with
    | dimension t =>
      rw [hs] at h
      dsimp only at h
      cases h2 : funnelColumns P w fs with
      | error e => rw [h2] at h; cases h
      | ok xs =>
        rw [h2] at h
        cases h
        exact .cons ⟨rfl, fun _ _ => rfl, fun m hm => by rw [hs] at hm; cases hm⟩ (ih h2)
    | measure m =>
      rw [hs] at h
      dsimp only at h
      cases ha : aggregateSql (aliasMeasure P f m) w .doesNotExist with
      | error e => rw [ha] at h; cases h
      | ok a =>
        rw [ha] at h
        dsimp only [Except.map] at h
        cases h2 : funnelColumns P w fs with
        | error e => rw [h2] at h; cases h
        | ok xs =>
          rw [h2] at h
          cases h
          refine .cons ⟨rfl, fun t ht => (by rw [hs] at ht; cases ht), fun m' hm => ?_⟩ (ih h2)
          rw [hs] at hm
          cases hm
          exact ⟨a, ha, rfl⟩

/-- The conditions on lines: each on the column of its field. -/
theorem havingColumns_ok {get : String → Res AnsField} {hs cs : List (String × Nat)} (h : havingColumns get hs = .ok cs) :
    List.Forall₂ (fun a c => ∃ f, get a.1 = .ok f ∧ c = (f.label, a.2)) hs cs := by
  induction hs generalizing cs with
  | nil => rw [havingColumns] at h; cases h; exact .nil
  | cons a hs ih =>
    obtain ⟨n, i⟩ := a
    rw [havingColumns] at h
    cases h1 : get n with
    | error e => rw [h1] at h; cases h
    | ok f =>
      rw [h1] at h
      dsimp only at h
      cases h2 : havingColumns get hs with
      | error e => rw [h2] at h; cases h
      | ok xs =>
        rw [h2] at h
        cases h
        exact .cons ⟨f, h1, rfl⟩ (ih h2)

/-- A name of one column only is that of its place only. -/
theorem columnOf_place {sel : List (SqlExpr × String)} {a : String} {i : Nat} {x : SqlExpr} (h : columnOf sel a = some (i, x)) {j : Nat} {c : SqlExpr × String}
    (hj : sel[j]? = some c) (hc : c.2 = a) : j = i := by
  unfold columnOf at h
  split at h
  · rename_i d hd
    simp only [Option.some.injEq, Prod.mk.injEq] at h
    have : (c, j) ∈ (sel.zipIdx).filter (fun c => c.1.2 = a) :=
      List.mem_filter.mpr ⟨List.mem_zipIdx_iff_getElem?.mpr hj, by simpa using hc⟩
    rw [hd, List.mem_singleton] at this
    rw [← h.1, ← this]
  · cases h

theorem stepSql_cond {known : String → Bool} {w : StepWindow} {i : Nat} {c : List Nat} {x : StepSql (List Nat)} (h : stepSql known w i c = .ok x) : x.cond = c := by
  unfold stepSql at h
  dsimp only at h
  generalize (if i + 1 > 1 then (withinSql known w (i + 1)).map some else (Except.ok none : Res (Option StepWithin))) = wi at h
  cases wi with
  | error e => cases h
  | ok v =>
    dsimp only at h
    split_ifs at h <;> (cases h; rfl)

theorem enrichDims_views {P : FunnelProject} {q : FunnelQuestion} (hid : ∀ f g, FunnelField P q f → FunnelField P q g → f.fid = g.fid → f.view = g.view)
    {lookup : List AnsField} {ns : List String} {l : List AnsField} (h : enrichDims P.get lookup ns = .ok l) (hk : ∀ f ∈ lookup, FunnelField P q f) :
    (∀ f ∈ l, FunnelField P q f) ∧ ∀ v, v ∈ l.map AnsField.view ↔ v ∈ lookup.map AnsField.view ∨ ∃ n ∈ ns, ∃ f, P.get n = .ok f ∧ f.view = v := by
  induction ns generalizing lookup with
  | nil => rw [enrichDims] at h; cases h; exact ⟨hk, by simp⟩
  | cons n ns ih =>
    rw [enrichDims] at h
    cases h1 : P.get n with
    | error e => rw [h1] at h; cases h
    | ok f =>
      rw [h1] at h
      dsimp only at h
      have hf : FunnelField P q f := .inr (.inl ⟨n, h1⟩)
      by_cases hm : f.fid ∈ lookup.map AnsField.fid
      · rw [if_pos hm] at h
        obtain ⟨g, hg, e⟩ := List.mem_map.mp hm
        have hv := hid g f (hk g hg) hf e
        obtain ⟨i1, i2⟩ := ih h hk
        refine ⟨i1, fun v => ?_⟩
        rw [i2 v]
        simp only [List.mem_cons, exists_eq_or_imp, h1, Except.ok.injEq, exists_eq_left']
        constructor
        · rintro (h | h)
          · exact .inl h
          · exact .inr (.inr h)
        · rintro (h | h | h)
          · exact .inl h
          · exact .inl (List.mem_map.mpr ⟨g, hg, hv.trans h⟩)
          · exact .inr h
      · rw [if_neg hm] at h
        obtain ⟨i1, i2⟩ := ih h (fun g hg => by
          rcases List.mem_append.mp hg with hg | hg
          · exact hk g hg
          · rw [List.mem_singleton] at hg
            subst hg
            exact hf)
        refine ⟨i1, fun v => ?_⟩
        rw [i2 v]
        simp only [List.mem_cons, exists_eq_or_imp, h1, Except.ok.injEq, exists_eq_left', List.map_append, List.map_cons, List.map_nil, List.mem_append, List.not_mem_nil, or_false]
        constructor
        · rintro ((h | h) | h)
          · exact .inl h
          · exact .inr (.inl h.symm)
          · exact .inr (.inr h)
        · rintro (h | h | h)
          · exact .inl (.inl h)
          · exact .inl (.inr h.symm)
          · exact .inr h

/-- Adding a field unless its name is there adds its view. -/
theorem add_views {P : FunnelProject} {q : FunnelQuestion} (hid : ∀ f g, FunnelField P q f → FunnelField P q g → f.fid = g.fid → f.view = g.view)
    {lookup : List AnsField} (hk : ∀ f ∈ lookup, FunnelField P q f) {f : AnsField} (hf : FunnelField P q f) :
    (∀ g ∈ (if f.fid ∈ lookup.map AnsField.fid then lookup else lookup ++ [f]), FunnelField P q g) ∧
      ∀ v, v ∈ (if f.fid ∈ lookup.map AnsField.fid then lookup else lookup ++ [f]).map AnsField.view ↔ v ∈ lookup.map AnsField.view ∨ f.view = v := by
  by_cases hm : f.fid ∈ lookup.map AnsField.fid
  · simp only [if_pos hm]
    obtain ⟨g, hg, e⟩ := List.mem_map.mp hm
    have hv := hid g f (hk g hg) hf e
    refine ⟨hk, fun v => ⟨.inl, ?_⟩⟩
    rintro (h | h)
    · exact h
    · exact List.mem_map.mpr ⟨g, hg, hv.trans h⟩
  · simp only [if_neg hm]
    refine ⟨fun g hg => ?_, fun v => ?_⟩
    · rcases List.mem_append.mp hg with hg | hg
      · exact hk g hg
      · rw [List.mem_singleton] at hg
        subst hg
        exact hf
    · simp [eq_comm]

theorem enrichMetrics_views {P : FunnelProject} {q : FunnelQuestion} (hid : ∀ f g, FunnelField P q f → FunnelField P q g → f.fid = g.fid → f.view = g.view)
    {lookup : List AnsField} {ns : List String} {l ks : List AnsField} (h : enrichMetrics P lookup ns = .ok (l, ks)) (hk : ∀ f ∈ lookup, FunnelField P q f) :
    ∀ v, v ∈ l.map AnsField.view ↔ v ∈ lookup.map AnsField.view ∨ ∃ n ∈ ns, ∃ m, P.get n = .ok m ∧ (m.view = v ∨ ∃ k, P.viewKey m.view = some k ∧ k.view = v) := by
  induction ns generalizing lookup l ks with
  | nil => rw [enrichMetrics] at h; cases h; simp
  | cons n ns ih =>
    rw [enrichMetrics] at h
    cases h1 : P.get n with
    | error e => rw [h1] at h; cases h
    | ok m =>
      rw [h1] at h
      dsimp only at h
      cases h2 : P.viewKey m.view with
      | none => rw [h2] at h; cases h
      | some k =>
        rw [h2] at h
        dsimp only at h
        have hkk : FunnelField P q k := .inr (.inr ⟨_, h2⟩)
        have hmm : FunnelField P q m := .inr (.inl ⟨_, h1⟩)
        obtain ⟨a1, a2⟩ := add_views hid hk hkk
        obtain ⟨b1, b2⟩ := add_views hid a1 hmm
        have hsw : (if k.fid ∉ lookup.map AnsField.fid then lookup ++ [k] else lookup) = if k.fid ∈ lookup.map AnsField.fid then lookup else lookup ++ [k] := by
          by_cases hc : k.fid ∈ lookup.map AnsField.fid <;> simp only [hc, not_true_eq_false, not_false_eq_true, if_true, if_false]
        rw [hsw] at h
        split at h
        · cases h
        · rename_i l' ks' h3
          cases h
          intro v
          rw [ih h3 b1 v, b2 v, a2 v]
          simp only [List.mem_cons, exists_eq_or_imp, h1, Except.ok.injEq, exists_eq_left', h2, Option.some.injEq]
          constructor
          · rintro (((h | h) | h) | h)
            · exact .inl h
            · exact .inr (.inl (.inr h))
            · exact .inr (.inl (.inl h))
            · exact .inr (.inr h)
          · rintro (h | (h | h) | h)
            · exact .inl (.inl (.inl h))
            · exact .inl (.inr h)
            · exact .inl (.inl (.inr h))
            · exact .inr h

theorem funnel_views {P : FunnelProject} {q : FunnelQuestion} (hid : ∀ f g, FunnelField P q f → FunnelField P q g → f.fid = g.fid → f.view = g.view)
    {fs : List AnsField} {date person : AnsField} {metrics : List String} {lookup : List AnsField}
    (h : funnelFields P q = .ok (fs, date, person, metrics, lookup)) : FunnelViews P q date person (lookup.map AnsField.view).dedup := by
  obtain ⟨-, hm, ⟨d, hd1, hd2⟩, ⟨l, hl1, hl2⟩, lk, h1, ks, h2⟩ := funnelFields_ok h
  rw [hd1, hl1] at h1
  dsimp only at h1
  obtain ⟨k1, k2⟩ := enrichDims_views hid h1 (fun f hf => .inl hf)
  have k3 := enrichMetrics_views hid h2 k1
  refine ⟨List.nodup_dedup _, fun v => ?_⟩
  rw [List.mem_dedup, k3 v, k2 v]
  constructor
  · rintro ((hv | ⟨n, hn, f, hf, rfl⟩) | ⟨n, hn, m, hmn, hv⟩)
    · obtain ⟨f, hf, rfl⟩ := List.mem_map.mp hv
      exact ⟨f, rfl, .inl hf⟩
    · refine ⟨f, rfl, ?_⟩
      rcases List.mem_append.mp hn with hn | hn
      · rcases List.mem_append.mp hn with hn | hn
        · exact .inr (.inr (.inr (.inl ⟨n, by simp [hn], hf⟩)))
        · rcases List.mem_cons.mp hn with rfl | hn
          · rw [hd2] at hf
            cases hf
            exact .inr (.inl rfl)
          · rw [List.mem_singleton] at hn
            subst hn
            rw [hl2] at hf
            cases hf
            exact .inr (.inr (.inl rfl))
      · have hn : n ∈ q.steps.flatten.map q.fieldOf := List.mem_dedup.mp hn
        exact .inr (.inr (.inr (.inl ⟨n, List.mem_append_left _ (List.mem_append_left _ (List.mem_append_right _ hn)), hf⟩)))
    · rw [hm] at hn
      have hn : n ∈ q.metrics ++ q.having.map Prod.fst := by
        rcases List.mem_append.mp hn with hn | hn
        · exact List.mem_append_left _ hn
        · exact List.mem_append_right _ (List.mem_dedup.mp hn)
      rcases hv with rfl | ⟨k, hk, rfl⟩
      · refine ⟨m, rfl, .inr (.inr (.inr (.inl ⟨n, ?_, hmn⟩)))⟩
        rw [List.append_assoc]
        exact List.mem_append_right _ hn
      · exact ⟨k, rfl, .inr (.inr (.inr (.inr ⟨n, hn, m, hmn, hk⟩)))⟩
  · rintro ⟨f, rfl, hf | rfl | rfl | ⟨n, hn, hf⟩ | ⟨n, hn, m, hmn, hk⟩⟩
    · exact .inl (.inl (List.mem_map.mpr ⟨f, hf, rfl⟩))
    · exact .inl (.inr ⟨d, by simp, _, hd2, rfl⟩)
    · exact .inl (.inr ⟨l, by simp, _, hl2, rfl⟩)
    · rw [List.append_assoc] at hn
      rcases List.mem_append.mp hn with hn | hn
      · rcases List.mem_append.mp hn with hn | hn
        · exact .inl (.inr ⟨n, by simp [hn], f, hf, rfl⟩)
        · exact .inl (.inr ⟨n, List.mem_append_right _ (List.mem_dedup.mpr hn), f, hf, rfl⟩)
      · refine .inr ⟨n, ?_, f, hf, .inl rfl⟩
        rw [hm]
        rcases List.mem_append.mp hn with hn | hn
        · exact List.mem_append_left _ hn
        · exact List.mem_append_right _ (List.mem_dedup.mpr hn)
    · refine .inr ⟨n, ?_, m, hmn, .inr ⟨f, hk, rfl⟩⟩
      rw [hm]
      rcases List.mem_append.mp hn with hn | hn
      · exact List.mem_append_left _ hn
      · exact List.mem_append_right _ (List.mem_dedup.mpr hn)

/-- Every metric's view has a key. -/
theorem enrichMetrics_haskey {P : FunnelProject} {lookup : List AnsField} {ns : List String} {l ks : List AnsField} (h : enrichMetrics P lookup ns = .ok (l, ks)) :
    ∀ n ∈ ns, ∀ f, P.get n = .ok f → ∃ k, P.viewKey f.view = some k := by
  induction ns generalizing lookup l ks with
  | nil => simp
  | cons n ns ih =>
    rw [enrichMetrics] at h
    cases h1 : P.get n with
    | error e => rw [h1] at h; cases h
    | ok m =>
      rw [h1] at h
      dsimp only at h
      cases h2 : P.viewKey m.view with
      | none => rw [h2] at h; cases h
      | some k =>
        rw [h2] at h
        dsimp only at h
        split at h
        · cases h
        · rename_i l' ks' h3
          intro x hx f hf
          rcases List.mem_cons.mp hx with rfl | hx
          · rw [h1] at hf
            cases hf
            exact ⟨k, h2⟩
          · exact ih h3 x hx f hf

theorem forall₂_imp_both {α β : Type} {R S : α → β → Prop} {l : List α} {m : List β} (h : List.Forall₂ R l m) (hi : ∀ a ∈ l, ∀ b ∈ m, R a b → S a b) : List.Forall₂ S l m := by
  induction h with
  | nil => exact .nil
  | @cons x y xs ys hxy _ ih =>
    exact .cons (hi x (by simp) y (by simp) hxy) (ih fun a ha b hb => hi a (List.mem_cons_of_mem _ ha) b (List.mem_cons_of_mem _ hb))

theorem forall₂_append_left {α β : Type} {R : α → β → Prop} {l₁ l₂ : List α} {m : List β} (h : List.Forall₂ R (l₁ ++ l₂) m) :
    ∃ m₁ m₂, List.Forall₂ R l₁ m₁ ∧ List.Forall₂ R l₂ m₂ ∧ m = m₁ ++ m₂ := by
  induction l₁ generalizing m with
  | nil => exact ⟨[], m, .nil, h, rfl⟩
  | cons a l₁ ih =>
    cases h with
    | @cons _ b _ bs hab hr =>
      obtain ⟨m₁, m₂, h1, h2, rfl⟩ := ih hr
      exact ⟨b :: m₁, m₂, .cons hab h1, h2, rfl⟩

end
end ML
