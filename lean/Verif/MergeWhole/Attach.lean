import Verif.MergeWhole.Places
/-
What one dimension adds to the sub-queries of a merged query (for C78).
-/
set_option autoImplicit false
namespace ML
open Spec

variable {env : PlanEnv} {metrics having dimensions : List String} {wheres : List MWhere} {plan : Plan} {mg sec : List PField}
  {q : List (String × List PField)} {dimFields : List PField} {dm0 dm : List (String × List DimMap)} {hashes used : List String}

theorem Spec.DateQuery.unique {c h h' : String} (a : DateQuery env c h) (b : DateQuery env c h') : h = h' := by
  obtain ⟨x, g, h1, h2, rfl⟩ := a
  obtain ⟨y, g', h3, h4, rfl⟩ := b
  rw [h1] at h3
  injection h3 with h3
  subst h3
  rw [h2] at h4
  injection h4 with h4
  rw [h4]

theorem Spec.TidyQuery.nice (ht : TidyQuery env metrics having dimensions) {h : String} (hs : SubQuery env metrics having h) : NiceName h := by
  obtain ⟨c, hc, hq⟩ := hs
  obtain ⟨h1, ns, h2⟩ := ht.names c h hc hq
  exact ⟨c, h1, ns, h2⟩

theorem PlanSteps.metricDates (st : PlanSteps env metrics having dimensions wheres plan mg sec q dimFields dm0 dm hashes used)
    (hp : PlainQuery env metrics having dimensions) (ht : TidyQuery env metrics having dimensions) (c : String) :
    c ∈ canonDates env mg sec dimFields q ↔ MetricDate env metrics having c := by
  refine ⟨fun h => ?_, st.canon hp c⟩
  rcases (st.datesOf hp).only c h with h | ⟨d, hd, f, hf, e, hno⟩
  · exact h
  · rcases ht.near d hd f c hf e with h | ⟨m, h1, h2⟩
    · exact h
    · exact absurd h2 (hno m h1)

theorem PlanSteps.otherDate (st : PlanSteps env metrics having dimensions wheres plan mg sec q dimFields dm0 dm hashes used)
    (hp : PlainQuery env metrics having dimensions) (two : TwoDates env metrics having) (c : String) :
    ∃ c', MetricDate env metrics having c' ∧ c ≠ c' := by
  obtain ⟨_, _, a3, _⟩ := placeMetrics_spec env metrics having mg sec q st.placed (fun f g n m _ _ hn hm e => hp.names n m f g hn hm e)
  obtain ⟨x, y, hx, hy, hne⟩ := two
  obtain ⟨_, ⟨cx, _, ex, _⟩, _⟩ := a3 x hx
  obtain ⟨_, ⟨cy, _, ey, _⟩, _⟩ := a3 y hy
  by_cases h : c = cx
  · refine ⟨cy, ⟨y, hy, ey⟩, ?_⟩
    rintro rfl
    exact hne (by rw [ex, ey, h])
  · exact ⟨cx, ⟨x, hx, ex⟩, h⟩

theorem PlanSteps.used_iff (st : PlanSteps env metrics having dimensions wheres plan mg sec q dimFields dm0 dm hashes used)
    (hp : PlainQuery env metrics having dimensions) (two : TwoDates env metrics having) (ht : TidyQuery env metrics having dimensions) (h : String) :
    h ∈ used ↔ SubQuery env metrics having h := by
  rw [st.used_mem]
  constructor
  · intro hh
    rcases dateMap_hashes env _ _ _ _ st.dates h hh with hh | ⟨dst, _, fr, hfr, _, hq⟩
    · cases hh
    · exact ⟨fr, (st.metricDates hp ht fr).mp hfr, hq⟩
  · rintro ⟨c, hc, hq⟩
    obtain ⟨c', hc', hne⟩ := st.otherDate hp two c
    obtain ⟨m, ⟨_, b, g, hb, hg, rfl⟩, hm, _⟩ := (dateMap_spec env _ _ _ _ st.dates).2.2.1 c' (st.canon hp c' hc') c (st.canon hp c hc) hne
    rw [hq.unique ⟨b, g, hb, hg, rfl⟩]
    exact hm

theorem PlanSteps.hasQuery (st : PlanSteps env metrics having dimensions wheres plan mg sec q dimFields dm0 dm hashes used)
    (hp : PlainQuery env metrics having dimensions) (two : TwoDates env metrics having) (c : String) (hc : MetricDate env metrics having c) :
    ∃ h, DateQuery env c h := by
  obtain ⟨c', hc', hne⟩ := st.otherDate hp two c
  obtain ⟨m, ⟨_, b, g, hb, hg, _⟩, _, _⟩ := (dateMap_spec env _ _ _ _ st.dates).2.2.1 c' (st.canon hp c' hc') c (st.canon hp c hc) hne
  exact ⟨_, b, g, hb, hg, rfl⟩

/-- The entries of a key: those of the other dates, or those of the model. -/
theorem PlanSteps.entries (st : PlanSteps env metrics having dimensions wheres plan mg sec q dimFields dm0 dm hashes used)
    (hp : PlainQuery env metrics having dimensions) (ht : TidyQuery env metrics having dimensions)
    (key : String) (x : DimMap) (hx : x ∈ (dictGet dm key).getD []) :
    (MetricDate env metrics having key ∧ MetricDate env metrics having x.field ∧ x.field ≠ key ∧ DateQuery env x.field x.fromHash) ∨
    (∃ d ∈ env.mappings, d.key = key ∧ ∃ m ∈ d.refs, x.field = m.field ∧ x.toHash = some m.toHash ∧
      (x.fromHash = d.fromHash ∨ hashContains x.fromHash [m.toHash] = true)) := by
  obtain ⟨_, e, _⟩ := st.mapped
  subst e
  unfold addMappings at hx
  rcases (addMappings_spec used env.mappings (dm0, dm0.map (fun p => (p.1, p.2.map (fun x => (x.field, x.fromHash)))))).2.2 key x hx with h | h
  · left
    rcases (dateMap_spec env _ _ _ _ st.dates).2.2.2 key x h with h | ⟨hk, fr, hfr, hne, b, g, hb, hg, rfl⟩
    · cases h
    · exact ⟨(st.metricDates hp ht _).mp hk, (st.metricDates hp ht _).mp hfr, hne, b, g, hb, hg, rfl⟩
  · exact .inr h

theorem PlanSteps.dateEntry (st : PlanSteps env metrics having dimensions wheres plan mg sec q dimFields dm0 dm hashes used)
    (hp : PlainQuery env metrics having dimensions) (c key h : String) (hk : MetricDate env metrics having key)
    (hc : MetricDate env metrics having c) (hne : c ≠ key) (hq : DateQuery env c h) :
    ∃ m ∈ (dictGet dm key).getD [], m.fromHash = h := by
  obtain ⟨_, e, _⟩ := st.mapped
  subst e
  obtain ⟨m, ⟨_, b, g, hb, hg, rfl⟩, _, hm⟩ := (dateMap_spec env _ _ _ _ st.dates).2.2.1 key (st.canon hp key hk) c (st.canon hp c hc) hne
  unfold addMappings
  exact ⟨_, (addMappings_spec used env.mappings (dm0, dm0.map (fun p => (p.1, p.2.map (fun x => (x.field, x.fromHash)))))).1 key _ hm,
    (hq.unique ⟨b, g, hb, hg, rfl⟩).symm⟩

theorem PlanSteps.modelEntry (st : PlanSteps env metrics having dimensions wheres plan mg sec q dimFields dm0 dm hashes used)
    (d : MapData) (hd : d ∈ env.mappings) (m : MapTo) (hm : m ∈ d.refs) (h : String) (hh : h ∈ used) (hc : hashContains h [m.toHash] = true) :
    ⟨m.field, h, some m.toHash⟩ ∈ (dictGet dm d.key).getD [] := by
  obtain ⟨_, e, _⟩ := st.mapped
  subst e
  unfold addMappings
  exact (addMappings_spec used env.mappings (dm0, dm0.map (fun p => (p.1, p.2.map (fun x => (x.field, x.fromHash)))))).2.1 d hd m hm h hh hc

/-- One dimension: every sub-query gets its counterpart, nothing else changes. -/
theorem PlanSteps.attachOne (st : PlanSteps env metrics having dimensions wheres plan mg sec q dimFields dm0 dm hashes used)
    (hp : PlainQuery env metrics having dimensions) (two : TwoDates env metrics having) (ht : TidyQuery env metrics having dimensions)
    (name : String) (hname : name ∈ dimensions) (acc acc' : List (String × List PField) × List (String × List PField))
    (hok : attachDimension env dm (canonDates env mg sec dimFields q) used name acc = .ok acc') :
    ∃ f, env.getField name = .ok f ∧ acc'.1 = acc.1 ∧ (Filled acc.2 → Filled acc'.2) ∧
      (∀ k, ¬ SubQuery env metrics having k → (dictGet acc'.2 k).getD [] = (dictGet acc.2 k).getD []) ∧
      ∀ h, SubQuery env metrics having h → ∃ new, new ≠ [] ∧ (dictGet acc'.2 h).getD [] = (dictGet acc.2 h).getD [] ++ new ∧
        ∀ x ∈ new, Counterpart env metrics having h f x := by
  unfold attachDimension at hok
  cases hf : env.getField name with
  | error e => rw [hf] at hok; cases hok
  | ok f =>
    rw [hf] at hok
    simp only at hok
    refine ⟨f, rfl, ?_⟩
    cases hg : joinHashKey env f with
    | error e => rw [hg] at hok; cases hok
    | ok g =>
      rw [hg] at hok
      simp only at hok
      by_cases hin : f.key ∈ canonDates env mg sec dimFields q
      · rw [if_pos hin] at hok
        have hk := (st.metricDates hp ht _).mp hin
        obtain ⟨hno, hsame⟩ := ht.dates name hname f hf hk
        obtain ⟨h0, hq0⟩ := st.hasQuery hp two f.key hk
        have h0e : h0 = cteName f.key g := by
          obtain ⟨b, g', hb, hg', rfl⟩ := hq0
          rw [hsame b hb, hg] at hg'
          injection hg' with hg'
          rw [hg']
        subst h0e
        cases ha : attachDates env f.group ((dictGet dm f.key).getD []) (dictAppend acc.2 (cteName f.key g) f) with
        | error e => rw [ha] at hok; cases hok
        | ok qd =>
          rw [ha] at hok
          simp only [Except.ok.injEq] at hok
          subst hok
          have hent : ∀ m ∈ (dictGet dm f.key).getD [], MetricDate env metrics having m.field ∧ m.field ≠ f.key ∧ DateQuery env m.field m.fromHash := by
            intro m hm
            rcases st.entries hp ht f.key m hm with ⟨_, h⟩ | ⟨d, hd, e, _⟩
            · exact h
            · exact absurd e (hno d hd)
          refine ⟨rfl, fun hfi => attachDates_filled env _ _ _ _ ha (hfi.append _ _), ?_, ?_⟩
          · intro k hk'
            obtain ⟨new, e1, e2, _⟩ := attachDates_appends env f.group _ _ _ ha k
            have : new = [] := by
              apply List.eq_nil_iff_forall_not_mem.mpr
              intro x hx
              obtain ⟨m, hm, e, _⟩ := e2 x hx
              obtain ⟨m1, _, m3⟩ := hent m hm
              exact hk' ⟨m.field, m1, e ▸ m3⟩
            rw [e1, this, List.append_nil, dictGet_append, if_neg]
            rintro rfl
            exact hk' ⟨f.key, hk, hq0⟩
          · intro h hh
            obtain ⟨new, e1, e2, e3⟩ := attachDates_appends env f.group _ _ _ ha h
            have hnew : ∀ x ∈ new, Counterpart env metrics having h f x := by
              intro x hx
              obtain ⟨m, hm, e, hx⟩ := e2 x hx
              obtain ⟨m1, m2, m3⟩ := hent m hm
              exact .inl ⟨hk, .inr ⟨m.field, m1, m2, e ▸ m3, hx⟩⟩
            by_cases he : cteName f.key g = h
            · subst he
              rw [dictGet_append, if_pos rfl] at e1
              refine ⟨f :: new, by simp, ?_, ?_⟩
              · simp only; rw [e1]; simp
              · intro x hx
                rcases List.mem_cons.mp hx with rfl | hx
                · exact .inl ⟨hk, .inl ⟨hq0, rfl⟩⟩
                · exact hnew x hx
            · rw [dictGet_append, if_neg he] at e1
              refine ⟨new, ?_, e1, hnew⟩
              obtain ⟨c, hc, hq⟩ := hh
              have hne : c ≠ f.key := by rintro rfl; exact he (hq0.unique hq)
              obtain ⟨m, hm, e⟩ := st.dateEntry hp c f.key h hk hc hne hq
              exact e3 m hm e
      · rw [if_neg hin] at hok
        have hk : ¬ MetricDate env metrics having f.key := fun h => hin ((st.metricDates hp ht _).mpr h)
        obtain ⟨⟨h1, hs1, hj1⟩, huniq⟩ := ht.others name hname f hf hk
        cases ha : attachUsed env (acc.1.map (·.1)) dm f used true acc.2 with
        | error e => rw [ha] at hok; cases hok
        | ok r =>
          obtain ⟨b, qd⟩ := r
          obtain ⟨i1, i2, i3, i4⟩ := attachUsed_spec env _ dm f used st.used_nodup true b acc.2 qd ha
          have hb : b = false := by
            cases b with
            | false => rfl
            | true =>
              have := (i1.mp rfl).2 h1 ((st.used_iff hp two ht h1).mpr hs1)
              rw [((ht.nice hs1).joins f).mp hj1] at this
              cases this
          subst hb
          rw [ha] at hok
          simp only [Except.ok.injEq] at hok
          subst hok
          refine ⟨rfl, fun hfi => attachUsed_filled env _ dm f used _ _ _ _ ha hfi, ?_, ?_⟩
          · intro k hk'
            exact i2 k (fun h => hk' ((st.used_iff hp two ht k).mp h))
          · intro h hh
            have hu := (st.used_iff hp two ht h).mpr hh
            have hn := ht.nice hh
            by_cases hj : JoinsIn h f
            · exact ⟨[f], by simp, i3 h hu ((hn.joins f).mp hj), by
                intro x hx
                rw [List.mem_singleton] at hx
                exact .inr ⟨hk, .inl ⟨hj, hx⟩⟩⟩
            · have hc : hashContains h f.graphs = false := by
                cases hcc : hashContains h f.graphs with
                | false => rfl
                | true => exact absurd ((hn.joins f).mpr hcc) hj
              obtain ⟨ms, new, e1, e2, e3⟩ := i4 h hu hc
              refine ⟨new, ?_, e2, ?_⟩
              · obtain ⟨x, hx⟩ := huniq h hh hj
                obtain ⟨d, hd, ek, m, hm, _, hb⟩ := (hx x).mpr rfl
                obtain ⟨n, n10, en⟩ := (ht.maps d hd).2 m hm
                have hlt := attachUsed_grows env _ dm f used st.used_nodup true false acc.2 qd ha h hu hc
                  ⟨_, ek ▸ st.modelEntry d hd m hm h hu ((hn.built _).mp hb), m.toHash, rfl, by
                    rw [en] at hb ⊢
                    exact (hn.infix_iff n n10).mpr hb⟩
                rintro rfl
                rw [e2, List.append_nil] at hlt
                exact absurd hlt (lt_irrefl _)
              · intro x hx
                obtain ⟨m, hm, hget, hcase⟩ := e3 x hx
                rcases st.entries hp ht f.key m (by rw [e1]; exact hm) with ⟨h, _⟩ | ⟨d, hd, ek, r, hr, r1, r2, r3⟩
                · exact absurd h hk
                · refine .inr ⟨hk, .inr ⟨hj, d, hd, ek, r, hr, r1 ▸ hget, ?_⟩⟩
                  obtain ⟨hm1, hm2⟩ := ht.maps d hd
                  rcases hcase with e | ⟨t, et, hi⟩
                  · rcases r3 with e' | e'
                    · rw [e] at e'
                      exact absurd (e' ▸ hh) hm1
                    · rw [e] at e'
                      exact (hn.built _).mpr e'
                  · rw [r2] at et
                    injection et with et
                    obtain ⟨n, n10, en⟩ := hm2 r hr
                    rw [← et, en] at hi
                    rw [en]
                    exact (hn.infix_iff n n10).mp hi

end ML
