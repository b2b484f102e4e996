import Verif.MergePlan.Props
/-
C35 and C36: which canonical dates a merged query has, what is recorded as merged with what, and how queries are rejected.
-/
set_option autoImplicit false
namespace ML
open Spec

/-- The fields share a join graph other than that of a merged result. -/
def Spec.ShareGraph (f g : PField) : Prop := ∃ j, j ∈ f.graphs ∧ j ∈ g.graphs ∧ ¬ "merged_result".toList <:+: j.toList

/-- The metric is asked for directly only, and no other metric the query needs has its date. -/
structure Spec.OwnDate (env : PlanEnv) (metrics having : List String) (m : PField) : Prop where
  needed : Needed env metrics having m
  alone : ∀ f, Needed env metrics having f → f.canon = m.canon → f = m
  direct : ∀ n ∈ metrics ++ having, ∀ r, env.getField n = .ok r → r.merged = true → some m ∉ env.refs r

/-- `h` is the sub-query of the date `c`. -/
def Spec.DateQuery (env : PlanEnv) (c h : String) : Prop :=
  ∃ b g, env.getFieldByName c = .ok b ∧ joinHashKey env b = .ok g ∧ h = cteName c g

/-- What the dates of a merged query must be: those of its metrics, and those of dimensions that cannot be joined to what is there. -/
structure Spec.DatesOf (env : PlanEnv) (metrics having dimensions : List String) (D : String → Prop) : Prop where
  metric : ∀ c, MetricDate env metrics having c → D c
  only : ∀ c, D c → MetricDate env metrics having c ∨ ∃ d ∈ dimensions, ∃ f, env.getField d = .ok f ∧ f.canon = some c ∧
    ∀ m, OwnDate env metrics having m → ¬ ShareGraph f m
  apart : ∀ d ∈ dimensions, ∀ f c, env.getField d = .ok f → f.canon = some c → c ≠ "" →
    (∀ m, Needed env metrics having m → ¬ ShareGraph f m) →
    (∀ d' ∈ dimensions, ∀ f', env.getField d' = .ok f' → f' ≠ f → ¬ ShareGraph f f') → D c
  first : metrics = [] → having = [] → ∀ d ds f c, dimensions = d :: ds → env.getField d = .ok f → f.canon = some c → c ≠ "" → D c ∧
    ∀ d' ∈ ds, ∀ f' c', env.getField d' = .ok f' → f'.canon = some c' → c' ≠ "" → ¬ ShareGraph f' f → D c'

/-! ### The dates -/

/-- The join graphs of a field that are not merged results, merged_query_resolve.py 331. -/
def plainGraphs (f : PField) : List String := f.graphs.filter (fun j => !containsSub "merged_result".toList j.toList)

theorem share_iff (f g : PField) : ShareGraph f g ↔ (plainGraphs f).any (fun j => j ∈ plainGraphs g) = true := by
  unfold ShareGraph plainGraphs
  simp only [List.any_eq_true, List.mem_filter, decide_eq_true_eq, Bool.not_eq_true', ← Bool.not_eq_true]
  constructor
  · rintro ⟨j, h1, h2, h3⟩
    rw [← containsSub_iff] at h3
    exact ⟨j, ⟨h1, h3⟩, h2, h3⟩
  · rintro ⟨j, ⟨h1, h3⟩, h2, _⟩
    rw [containsSub_iff] at h3
    exact ⟨j, h1, h2, h3⟩

theorem dateStep_sets (b : Bool) (acc : List (Option String) × List (List String)) (f : PField) :
    (dateStep b acc f = (acc.1 ++ [f.canon], acc.2 ++ [plainGraphs f]) ∨ dateStep b acc f = acc) ∧
    (∀ s ∈ acc.2, s ∈ (dateStep b acc f).2) := by
  have h : dateStep b acc f = (acc.1 ++ [f.canon], acc.2 ++ [plainGraphs f]) ∨ dateStep b acc f = acc := by
    unfold dateStep plainGraphs
    exact ite_eq_or_eq _ _ _
  refine ⟨h, fun s hs => ?_⟩
  rcases h with h | h <;> rw [h]
  · exact List.mem_append_left _ hs
  · exact hs

theorem foldDates_sets_mono (b : Bool) (fs : List PField) (acc : List (Option String) × List (List String)) (s : List String) (h : s ∈ acc.2) :
    s ∈ (fs.foldl (dateStep b) acc).2 := by
  induction fs generalizing acc with
  | nil => exact h
  | cons f fs ih => exact ih _ ((dateStep_sets b acc f).2 s h)

theorem foldDates_sets_only (b : Bool) (fs : List PField) (acc : List (Option String) × List (List String)) (s : List String)
    (h : s ∈ (fs.foldl (dateStep b) acc).2) : s ∈ acc.2 ∨ ∃ f ∈ fs, s = plainGraphs f := by
  induction fs generalizing acc with
  | nil => exact .inl h
  | cons x fs ih =>
    rcases ih _ h with h | ⟨f, hf, e⟩
    · rcases (dateStep_sets b acc x).1 with e | e <;> rw [e] at h
      · rcases List.mem_append.mp h with h | h
        · exact .inl h
        · exact .inr ⟨x, List.mem_cons_self, List.mem_singleton.mp h⟩
      · exact .inl h
    · exact .inr ⟨f, List.mem_cons_of_mem _ hf, e⟩

/-- A metric whose date is not noted is noted with its join graphs. -/
theorem dateStep_new (b : Bool) (acc : List (Option String) × List (List String)) (f : PField) (c : String) (hm : f.measure = true)
    (hc : f.canon = some c) (hne : c ≠ "") (hnew : some c ∉ acc.1) : plainGraphs f ∈ (dateStep b acc f).2 := by
  unfold dateStep
  dsimp only
  rw [if_pos (by simp [hc, hne, hm, hnew])]
  exact List.mem_append_right _ (List.mem_singleton.mpr rfl)

/-- A dimension that shares a join graph with a noted field changes nothing, if there are metrics. -/
theorem dateStep_joinable (acc : List (Option String) × List (List String)) (f : PField) (hm : f.measure = false) (s : List String)
    (hs : s ∈ acc.2) (hj : (plainGraphs f).any (fun j => j ∈ s) = true) : dateStep true acc f = acc := by
  unfold dateStep
  dsimp only
  rw [if_neg]
  have : acc.2.any (fun s => (f.graphs.filter (fun j => !containsSub "merged_result".toList j.toList)).any (fun j => j ∈ s)) = true :=
    List.any_eq_true.mpr ⟨s, hs, hj⟩
  rw [this]
  simp [hm]

/-- A dimension that shares no join graph with a noted field is noted. -/
theorem dateStep_apart (b : Bool) (acc : List (Option String) × List (List String)) (f : PField) (hm : f.measure = false) (c : String)
    (hc : f.canon = some c) (hne : c ≠ "") (hj : ∀ s ∈ acc.2, (plainGraphs f).any (fun j => j ∈ s) = false) :
    dateStep b acc f = (acc.1 ++ [f.canon], acc.2 ++ [plainGraphs f]) := by
  unfold dateStep
  dsimp only
  rw [if_pos]
  · rfl
  · have : acc.2.any (fun s => (f.graphs.filter (fun j => !containsSub "merged_result".toList j.toList)).any (fun j => j ∈ s)) = false :=
      List.any_eq_false.mpr (fun s hs => by rw [Bool.not_eq_true]; exact hj s hs)
    rw [this]
    simp [hm, hc, hne]

/-- Without metrics, a dimension that does not join some noted field is noted. -/
theorem dateStep_free (acc : List (Option String) × List (List String)) (f : PField) (hm : f.measure = false) (c : String)
    (hc : f.canon = some c) (hne : c ≠ "") (s : List String) (hs : s ∈ acc.2) (hj : (plainGraphs f).any (fun j => j ∈ s) = false) :
    some c ∈ (dateStep false acc f).1 := by
  unfold dateStep
  dsimp only
  rw [if_pos]
  · rw [hc]; exact List.mem_append_right _ (List.mem_singleton.mpr rfl)
  · have : acc.2.all (fun s => (f.graphs.filter (fun j => !containsSub "merged_result".toList j.toList)).any (fun j => j ∈ s)) = false := by
      rw [← Bool.not_eq_true, List.all_eq_true]
      intro h
      exact absurd (h s hs) (by rw [Bool.not_eq_true]; exact hj)
    rw [this]
    simp [hc, hne]

/-- With metrics, only dimensions that share no join graph with a noted set add their dates. -/
theorem foldDates_dims (fs : List PField) (acc : List (Option String) × List (List String)) (c : Option String) (hm : ∀ f ∈ fs, f.measure = false)
    (h : c ∈ (fs.foldl (dateStep true) acc).1) :
    c ∈ acc.1 ∨ ∃ f ∈ fs, f.canon = c ∧ ∀ s ∈ acc.2, (plainGraphs f).any (fun j => j ∈ s) = false := by
  induction fs generalizing acc with
  | nil => exact .inl h
  | cons x fs ih =>
    rcases ih _ (fun f hf => hm f (List.mem_cons_of_mem _ hf)) h with h | ⟨f, hf, e, h⟩
    · by_cases hx : ∀ s ∈ acc.2, (plainGraphs x).any (fun j => j ∈ s) = false
      · rcases (dateStep_sets true acc x).1 with e | e <;> rw [e] at h
        · rcases List.mem_append.mp h with h | h
          · exact .inl h
          · exact .inr ⟨x, List.mem_cons_self, (List.mem_singleton.mp h).symm, hx⟩
        · exact .inl h
      · rw [not_forall₂] at hx
        obtain ⟨s, hs, hj⟩ := hx
        rw [Bool.not_eq_false] at hj
        rw [dateStep_joinable acc x (hm x List.mem_cons_self) s hs hj] at h
        exact .inl h
    · exact .inr ⟨f, List.mem_cons_of_mem _ hf, e, fun s hs => h s ((dateStep_sets true acc x).2 s hs)⟩

theorem mem_canonDates_iff (env : PlanEnv) (mg sec dims : List PField) (q : List (String × List PField)) (c : String) :
    c ∈ canonDates env mg sec dims q ↔
      some c ∈ ((q.flatMap (·.2) ++ dims).foldl (dateStep (!(sec ++ mg).isEmpty)) (refDates env mg, [])).1 := by
  unfold canonDates
  simp only
  rw [List.mem_insertionSort, List.mem_dedup, List.mem_filterMap]
  simp

section
variable {env : PlanEnv} {metrics having dimensions : List String} {wheres : List MWhere} {plan : Plan} {mg sec : List PField}
  {q : List (String × List PField)} {dimFields : List PField} {dm0 dm : List (String × List DimMap)} {hashes used : List String}

theorem PlanSteps.datesOf (st : PlanSteps env metrics having dimensions wheres plan mg sec q dimFields dm0 dm hashes used)
    (hp : PlainQuery env metrics having dimensions) :
    DatesOf env metrics having dimensions (fun c => c ∈ canonDates env mg sec dimFields q) := by
  obtain ⟨a1, a2, a3, a4, a5, a6⟩ := placeMetrics_spec env metrics having mg sec q st.placed (fun f g n m _ _ hn hm e => hp.names n m f g hn hm e)
  have hqneed : ∀ x ∈ q.flatMap (·.2), Needed env metrics having x := by
    intro x hx
    obtain ⟨⟨k, l⟩, hkl, hx⟩ := List.mem_flatMap.mp hx
    exact (a1.place k l hkl x hx).2
  have hinq : ∀ m, Needed env metrics having m → m ∈ q.flatMap (·.2) := by
    intro m hm
    obtain ⟨k, _, l, hkl, g, hg, e⟩ := a3 m hm
    have := hp.ids g m (a1.place k l hkl g hg).2 hm e
    subst this
    exact List.mem_flatMap.mpr ⟨(k, l), hkl, hg⟩
  have hdimf : ∀ f ∈ dimFields, ∃ d ∈ dimensions, env.getField d = .ok f := fun f hf => (getFields_mem env dimensions dimFields st.fields f).mp hf
  have hdimm : ∀ f ∈ dimFields, f.measure = false := by
    intro f hf
    obtain ⟨d, hd, e⟩ := hdimf f hf
    exact (hp.dims d hd f e).dim
  refine ⟨st.canon hp, ?_, ?_, ?_⟩
  · intro c hc
    by_cases hone : ∃ m, OwnDate env metrics having m
    · have hany : (!(sec ++ mg).isEmpty) = true := by
        obtain ⟨m, hm⟩ := hone
        obtain ⟨n, hn, r, hr, h⟩ := hm.needed
        have : r ∈ sec ++ mg := by
          rcases h with ⟨h, _⟩ | ⟨h, _⟩
          · exact List.mem_append_left _ (a6 n hn r hr h)
          · exact List.mem_append_right _ (a5 n hn r hr h)
        cases e : sec ++ mg with
        | nil => rw [e] at this; cases this
        | cons _ _ => rfl
      rw [mem_canonDates_iff, hany, List.foldl_append] at hc
      rcases foldDates_dims dimFields _ _ hdimm hc with hc | ⟨f, hf, e, hno⟩
      · have : c ∈ canonDates env mg sec [] q := by
          rw [mem_canonDates_iff, hany, List.append_nil]
          exact hc
        rcases canonDates_only env mg sec [] q c this with ⟨m, hm, f, hf, e⟩ | ⟨k, l, hl, f, hf, e⟩ | ⟨f, hf, _⟩
        · obtain ⟨n, hn, e1, e2⟩ := a4 m hm
          exact .inl ⟨f, ⟨n, hn, m, e1, .inr ⟨e2, hf⟩⟩, e⟩
        · exact .inl ⟨f, (a1.place k l hl f hf).2, e⟩
        · cases hf
      · obtain ⟨d, hd, ed⟩ := hdimf f hf
        refine .inr ⟨d, hd, f, ed, e, fun m hm hs => ?_⟩
        rw [share_iff] at hs
        have : plainGraphs m ∈ ((q.flatMap (·.2)).foldl (dateStep true) (refDates env mg, [])).2 := by
          obtain ⟨as, bs, hsplit, hnot⟩ := List.eq_append_cons_of_mem (hinq m hm.needed)
          have hsub : ∀ x ∈ as, x ∈ q.flatMap (·.2) := fun x hx => by rw [hsplit]; exact List.mem_append_left _ hx
          rw [hsplit, List.foldl_append, List.foldl_cons]
          apply foldDates_sets_mono
          obtain ⟨m1, m2, _⟩ := hp.measure m hm.needed
          obtain ⟨_, ⟨cm, _, hcm, _⟩, _⟩ := a3 m hm.needed
          refine dateStep_new true _ m cm m1 hcm (fun h => m2 (by rw [hcm, h])) (fun hin => ?_)
          rcases foldDates_only true as _ _ hin with hin | ⟨x, hx, ex⟩
          · obtain ⟨r, hr, hin⟩ := List.mem_flatMap.mp hin
            obtain ⟨o, ho, eo⟩ := List.mem_map.mp hin
            cases o with
            | none => cases eo
            | some y =>
              obtain ⟨n, hn, e1, e2⟩ := a4 r hr
              have := hm.alone y ⟨n, hn, r, e1, .inr ⟨e2, ho⟩⟩ (by rw [hcm]; exact eo)
              subst this
              exact hm.direct n hn r e1 e2 ho
          · have := hm.alone x (hqneed x (hsub x hx)) (by rw [hcm]; exact ex)
            subst this
            exact hnot hx
        rw [hno _ this] at hs
        cases hs
    · rcases st.dates_only hp.names c hc with h | ⟨d, hd, f, e1, e2⟩
      · exact .inl h
      · exact .inr ⟨d, hd, f, e1, e2, fun m hm => absurd ⟨m, hm⟩ hone⟩
  · intro d hd f c hf hc hne hmet hdim
    show c ∈ _
    rw [mem_canonDates_iff]
    have hin : f ∈ dimFields := (getFields_mem env dimensions dimFields st.fields f).mpr ⟨d, hd, hf⟩
    obtain ⟨as, bs, hsplit, hnot⟩ := List.eq_append_cons_of_mem hin
    rw [hsplit, List.foldl_append, List.foldl_append, List.foldl_cons]
    apply foldDates_mono
    rw [dateStep_apart _ _ f (hdimm f hin) c hc hne, hc]
    · exact List.mem_append_right _ (List.mem_singleton.mpr rfl)
    · intro s hs
      rw [← List.foldl_append] at hs
      rcases foldDates_sets_only _ _ _ s hs with hs | ⟨x, hx, rfl⟩
      · cases hs
      · rw [← Bool.not_eq_true, ← share_iff]
        rcases List.mem_append.mp hx with hx | hx
        · exact hmet x (hqneed x hx)
        · obtain ⟨d', hd', e'⟩ := hdimf x (by rw [hsplit]; exact List.mem_append_left _ hx)
          exact hdim d' hd' x e' (fun e => hnot (e ▸ hx))
  · rintro rfl rfl d ds f c rfl hf hc hne
    have hq : q = [] ∧ mg = [] ∧ sec = [] := by
      have := st.placed
      simp only [placeMetrics, splitMetrics, havingMetrics, List.append_nil, placeMerged, placeSecondary, dedupDict, List.map_nil,
        Except.ok.injEq, Prod.mk.injEq] at this
      exact ⟨this.2.2.symm, this.1.symm, this.2.1.symm⟩
    obtain ⟨rfl, rfl, rfl⟩ := hq
    have hfields := st.fields
    simp only [getFields] at hfields
    rw [hf] at hfields
    simp only at hfields
    cases hrest : getFields env ds with
    | error e => rw [hrest] at hfields; cases hfields
    | ok fs =>
      rw [hrest] at hfields
      simp only [Except.ok.injEq] at hfields
      subst hfields
      have hstep : dateStep false (refDates env [], []) f = ([] ++ [f.canon], [] ++ [plainGraphs f]) :=
        dateStep_apart false (refDates env [], []) f (hdimm f List.mem_cons_self) c hc hne (fun s hs => by cases hs)
      refine ⟨?_, ?_⟩
      · show c ∈ _
        rw [mem_canonDates_iff]
        show some c ∈ ((f :: fs).foldl (dateStep false) (refDates env [], [])).1
        rw [List.foldl_cons, hstep, hc]
        exact foldDates_mono _ _ _ _ (by simp)
      · intro d' hd' f' c' hf' hc' hne' hs
        have hin : f' ∈ fs := (getFields_mem env ds fs hrest f').mpr ⟨d', hd', hf'⟩
        show c' ∈ _
        rw [mem_canonDates_iff]
        show some c' ∈ ((f :: fs).foldl (dateStep false) (refDates env [], [])).1
        rw [List.foldl_cons, hstep]
        obtain ⟨as, bs, hsplit, _⟩ := List.eq_append_cons_of_mem hin
        rw [hsplit, List.foldl_append, List.foldl_cons]
        apply foldDates_mono
        refine dateStep_free _ f' (hdimm f' (List.mem_cons_of_mem _ hin)) c' hc' hne' (plainGraphs f) ?_ ?_
        · exact foldDates_sets_mono _ _ _ _ (by simp)
        · rw [share_iff, Bool.not_eq_true] at hs
          exact hs

end

/-! ### What is recorded -/

theorem dateMapInner_hashes (env : PlanEnv) (dst : String) (frs : List String) (acc acc' : List (String × List DimMap) × List String)
    (h : dateMapInner env dst frs acc = .ok acc') (x : String) (hx : x ∈ acc'.2) :
    x ∈ acc.2 ∨ ∃ fr ∈ frs, fr ≠ dst ∧ DateQuery env fr x := by
  induction frs generalizing acc with
  | nil => simp only [dateMapInner, Except.ok.injEq] at h; subst h; exact .inl hx
  | cons fr frs ih =>
    simp only [dateMapInner] at h
    by_cases e : dst = fr
    · rw [if_pos e] at h
      exact (ih acc h).imp id (fun ⟨a, b, c⟩ => ⟨a, List.mem_cons_of_mem _ b, c⟩)
    · rw [if_neg e] at h
      cases hb : env.getFieldByName fr with
      | error e => rw [hb] at h; cases h
      | ok b =>
        rw [hb] at h
        simp only at h
        cases hg : joinHashKey env b with
        | error e => rw [hg] at h; cases h
        | ok g =>
          rw [hg] at h
          simp only at h
          rcases ih _ h with h | ⟨a, ha, h⟩
          · rcases List.mem_append.mp h with h | h
            · exact .inl h
            · exact .inr ⟨fr, List.mem_cons_self, fun e' => e e'.symm, b, g, hb, hg, List.mem_singleton.mp h⟩
          · exact .inr ⟨a, List.mem_cons_of_mem _ ha, h⟩

theorem dateMap_hashes (env : PlanEnv) (dates dsts : List String) (acc acc' : List (String × List DimMap) × List String)
    (h : dateMap env dates dsts acc = .ok acc') (x : String) (hx : x ∈ acc'.2) :
    x ∈ acc.2 ∨ ∃ dst ∈ dsts, ∃ fr ∈ dates, fr ≠ dst ∧ DateQuery env fr x := by
  induction dsts generalizing acc with
  | nil => simp only [dateMap, Except.ok.injEq] at h; subst h; exact .inl hx
  | cons dst dsts ih =>
    simp only [dateMap] at h
    cases hi : dateMapInner env dst dates acc with
    | error e => rw [hi] at h; cases h
    | ok a =>
      rw [hi] at h
      rcases ih a h with h | ⟨d, hd, h⟩
      · rcases dateMapInner_hashes env dst dates acc a hi x h with h | ⟨fr, hfr, h⟩
        · exact .inl h
        · exact .inr ⟨dst, List.mem_cons_self, fr, hfr, h⟩
      · exact .inr ⟨d, List.mem_cons_of_mem _ hd, h⟩

theorem mapToUsed_lookup (key : String) (m : MapTo) (hs : List String) (fr : String)
    (acc : List (String × List DimMap) × List (String × List (String × String))) (k f h : String) :
    (f, h) ∈ (dictGet (mapToUsed key m hs fr acc).2 k).getD [] ↔ (f, h) ∈ (dictGet acc.2 k).getD [] ∨
      (k = key ∧ f = m.field ∧ h ∈ hs ∧ hashContains h [m.toHash] = true) := by
  induction hs generalizing fr acc with
  | nil => simp [mapToUsed]
  | cons x hs ih =>
    simp only [mapToUsed]
    by_cases hc : hashContains x [m.toHash] = true
    · rw [if_pos hc, ih, dictGet_append]
      by_cases e : key = k
      · rw [if_pos e, List.mem_append, List.mem_singleton, Prod.mk.injEq]
        constructor
        · rintro ((h1 | ⟨h1, h2⟩) | ⟨h1, h2, h3, h4⟩)
          · exact .inl h1
          · exact .inr ⟨e.symm, h1, by rw [h2]; exact List.mem_cons_self, by rw [h2]; exact hc⟩
          · exact .inr ⟨h1, h2, List.mem_cons_of_mem _ h3, h4⟩
        · rintro (h1 | ⟨h1, h2, h3, h4⟩)
          · exact .inl (.inl h1)
          · rcases List.mem_cons.mp h3 with h3 | h3
            · exact .inl (.inr ⟨h2, h3⟩)
            · exact .inr ⟨h1, h2, h3, h4⟩
      · rw [if_neg e]
        constructor
        · rintro (h1 | ⟨h1, _⟩)
          · exact .inl h1
          · exact absurd h1.symm e
        · rintro (h1 | ⟨h1, _⟩)
          · exact .inl h1
          · exact absurd h1.symm e
    · rw [if_neg hc, ih]
      constructor
      · rintro (h1 | ⟨h1, h2, h3, h4⟩)
        · exact .inl h1
        · exact .inr ⟨h1, h2, List.mem_cons_of_mem _ h3, h4⟩
      · rintro (h1 | ⟨h1, h2, h3, h4⟩)
        · exact .inl h1
        · rcases List.mem_cons.mp h3 with rfl | h3
          · exact absurd h4 hc
          · exact .inr ⟨h1, h2, h3, h4⟩

theorem mapRefs_lookup (used : List String) (key fr : String) (ms : List MapTo)
    (acc : List (String × List DimMap) × List (String × List (String × String))) (k f h : String) :
    (f, h) ∈ (dictGet (ms.foldl (fun acc m => mapToUsed key m used fr acc) acc).2 k).getD [] ↔ (f, h) ∈ (dictGet acc.2 k).getD [] ∨
      (k = key ∧ ∃ m ∈ ms, f = m.field ∧ h ∈ used ∧ hashContains h [m.toHash] = true) := by
  induction ms generalizing acc with
  | nil => simp
  | cons m ms ih =>
    rw [List.foldl_cons, ih, mapToUsed_lookup]
    simp only [List.mem_cons, exists_eq_or_imp]
    tauto

theorem addMappings_lookup (used : List String) (data : List MapData)
    (acc : List (String × List DimMap) × List (String × List (String × String))) (k f h : String) :
    (f, h) ∈ (dictGet (data.foldl (fun acc d => d.refs.foldl (fun acc m => mapToUsed d.key m used d.fromHash acc) acc) acc).2 k).getD [] ↔
      (f, h) ∈ (dictGet acc.2 k).getD [] ∨
      ∃ d ∈ data, d.key = k ∧ ∃ m ∈ d.refs, m.field = f ∧ h ∈ used ∧ hashContains h [m.toHash] = true := by
  induction data generalizing acc with
  | nil => simp
  | cons d data ih =>
    rw [List.foldl_cons, ih, mapRefs_lookup]
    simp only [List.mem_cons, exists_eq_or_imp]
    constructor
    · rintro ((h1 | ⟨rfl, m, hm, rfl, h2⟩) | h1)
      · exact .inl h1
      · exact .inr (.inl ⟨rfl, m, hm, rfl, h2⟩)
      · exact .inr (.inr h1)
    · rintro (h1 | ⟨rfl, m, hm, rfl, h2⟩ | h1)
      · exact .inl (.inl h1)
      · exact .inl (.inr ⟨rfl, m, hm, rfl, h2⟩)
      · exact .inr h1

theorem dictGet_mapValues {A B : Type} (f : A → B) (d : List (String × A)) (k : String) :
    dictGet (d.map (fun p => (p.1, f p.2))) k = (dictGet d k).map f := by
  induction d with
  | nil => rfl
  | cons p d ih =>
    obtain ⟨a, b⟩ := p
    simp only [List.map_cons, dictGet]
    split
    · rfl
    · exact ih

/-- C35: what a plan records as merged with a name, and in which sub-query, are exactly the other dates of the query, each in its
own sub-query, and the fields the model maps the name to, in each sub-query of a date that their join graph is part of. The dates
of the query are those of its metrics and those of dimensions that cannot be joined to them. -/
theorem C35_lookup (env : PlanEnv) (metrics having dimensions : List String) (wheres : List MWhere) (plan : Plan)
    (h : derivePlan env metrics having dimensions wheres = .ok plan) (hp : PlainQuery env metrics having dimensions) :
    ∃ D, DatesOf env metrics having dimensions D ∧ ∀ k f s, (f, s) ∈ (dictGet plan.lookup k).getD [] ↔
      (D k ∧ D f ∧ f ≠ k ∧ DateQuery env f s) ∨
      ∃ d ∈ env.mappings, d.key = k ∧ ∃ m ∈ d.refs, m.field = f ∧ (∃ c c', D c ∧ D c' ∧ c ≠ c' ∧ DateQuery env c s) ∧
        hashContains s [m.toHash] = true := by
  obtain ⟨mg, sec, q, dimFields, dm0, dm, hashes, used, st⟩ := derivePlan_steps env metrics having dimensions wheres plan h
  refine ⟨_, st.datesOf hp, fun k f s => ?_⟩
  obtain ⟨_, _, rfl, e⟩ := st.mapped
  obtain ⟨_, _, d3, d4⟩ := dateMap_spec env _ _ _ _ st.dates
  have hused : ∀ x, x ∈ used ↔ ∃ c c', c ∈ canonDates env mg sec dimFields q ∧ c' ∈ canonDates env mg sec dimFields q ∧ c ≠ c' ∧ DateQuery env c x := by
    intro x
    rw [st.used_mem]
    constructor
    · intro hx
      rcases dateMap_hashes env _ _ _ _ st.dates x hx with hx | ⟨dst, hdst, fr, hfr, hne, hq⟩
      · cases hx
      · exact ⟨fr, dst, hfr, hdst, hne, hq⟩
    · rintro ⟨c, c', hc, hc', hne, b, g, hb, hg, rfl⟩
      obtain ⟨m, ⟨_, b', g', hb', hg', rfl⟩, hm, _⟩ := d3 c' hc' c hc hne
      rw [hb] at hb'
      injection hb' with hb'
      subst hb'
      rw [hg] at hg'
      injection hg' with hg'
      subst hg'
      exact hm
  rw [e]
  unfold addMappings
  rw [addMappings_lookup]
  apply or_congr
  · simp only
    rw [dictGet_mapValues (fun l : List DimMap => l.map (fun x => (x.field, x.fromHash)))]
    have hget : ((dictGet dm0 k).map (fun l => l.map (fun x : DimMap => (x.field, x.fromHash)))).getD [] =
        ((dictGet dm0 k).getD []).map (fun x => (x.field, x.fromHash)) := by
      cases dictGet dm0 k <;> rfl
    rw [hget, List.mem_map]
    constructor
    · rintro ⟨m, hm, e⟩
      rcases d4 k m hm with hm | ⟨hk, fr, hfr, hne, b, g, hb, hg, rfl⟩
      · cases hm
      · simp only [Prod.mk.injEq] at e
        obtain ⟨rfl, rfl⟩ := e
        exact ⟨hk, hfr, hne, b, g, hb, hg, rfl⟩
    · rintro ⟨hk, hf, hne, b, g, hb, hg, rfl⟩
      obtain ⟨m, ⟨_, b', g', hb', hg', rfl⟩, _, hm⟩ := d3 k hk f hf hne
      rw [hb] at hb'
      injection hb' with hb'
      subst hb'
      rw [hg] at hg'
      injection hg' with hg'
      subst hg'
      exact ⟨_, hm, rfl⟩
  · constructor
    · rintro ⟨d, hd, e1, m, hm, e2, hu, hc⟩
      exact ⟨d, hd, e1, m, hm, e2, (hused s).mp hu, hc⟩
    · rintro ⟨d, hd, e1, m, hm, e2, hu, hc⟩
      exact ⟨d, hd, e1, m, hm, e2, (hused s).mpr hu, hc⟩

/-! ### Rejected queries -/

theorem placeRefs_none (env : PlanEnv) (l : List (Option PField)) (q q' : List (String × List PField)) (h : placeRefs env l q = .ok q') :
    none ∉ l := by
  induction l generalizing q with
  | nil => simp
  | cons o l ih =>
    cases o with
    | none => cases h
    | some f =>
      simp only [placeRefs] at h
      cases hc : f.canon with
      | none => rw [hc] at h; cases h
      | some c =>
        rw [hc] at h
        simp only at h
        cases hg : joinHashKey env f with
        | error e => rw [hg] at h; cases h
        | ok g =>
          rw [hg] at h
          simp [ih _ h]

theorem placeRefs_error (env : PlanEnv) (l : List (Option PField)) (q : List (String × List PField)) (e : Err) (h : placeRefs env l q = .error e)
    (hd : ∀ f c, some f ∈ l → f.canon = some c → ∃ g, joinHashKey env f = .ok g) : e = .query := by
  induction l generalizing q with
  | nil => cases h
  | cons o l ih =>
    cases o with
    | none => simp only [placeRefs] at h; cases h; rfl
    | some f =>
      simp only [placeRefs] at h
      cases hc : f.canon with
      | none => rw [hc] at h; cases h; rfl
      | some c =>
        rw [hc] at h
        obtain ⟨g, hg⟩ := hd f c List.mem_cons_self hc
        rw [hg] at h
        exact ih _ h (fun f c hf => hd f c (List.mem_cons_of_mem _ hf))

theorem placeMerged_none (env : PlanEnv) (ms : List PField) (q q' : List (String × List PField)) (h : placeMerged env ms q = .ok q') :
    ∀ m ∈ ms, none ∉ env.refs m := by
  induction ms generalizing q with
  | nil => simp
  | cons m ms ih =>
    simp only [placeMerged] at h
    cases hr : placeRefs env (env.refs m) q with
    | error e => rw [hr] at h; cases h
    | ok a =>
      rw [hr] at h
      intro x hx
      rcases List.mem_cons.mp hx with rfl | hx
      · exact placeRefs_none env _ _ _ hr
      · exact ih _ h x hx

theorem placeMerged_error (env : PlanEnv) (ms : List PField) (q : List (String × List PField)) (e : Err) (h : placeMerged env ms q = .error e)
    (hd : ∀ m ∈ ms, ∀ f c, some f ∈ env.refs m → f.canon = some c → ∃ g, joinHashKey env f = .ok g) : e = .query := by
  induction ms generalizing q with
  | nil => cases h
  | cons m ms ih =>
    simp only [placeMerged] at h
    cases hr : placeRefs env (env.refs m) q with
    | error e' =>
      rw [hr] at h
      injection h with h
      subst h
      exact placeRefs_error env _ _ _ hr (hd m List.mem_cons_self)
    | ok a =>
      rw [hr] at h
      exact ih _ h (fun m hm => hd m (List.mem_cons_of_mem _ hm))

theorem joinHashKey_none (env : PlanEnv) (f : PField) (h : f.canon = none) : ∃ g, joinHashKey env f = .ok g := by
  unfold joinHashKey
  rw [h]
  cases f.measure <;> exact ⟨_, rfl⟩

theorem placeSecondary_error (env : PlanEnv) (ms : List PField) (q : List (String × List PField)) (e : Err) (h : placeSecondary env ms q = .error e)
    (hd : ∀ f ∈ ms, ∀ c, f.canon = some c → ∃ g, joinHashKey env f = .ok g) : e = .query := by
  induction ms generalizing q with
  | nil => cases h
  | cons f ms ih =>
    simp only [placeSecondary] at h
    cases hc : f.canon with
    | none =>
      obtain ⟨g, hg⟩ := joinHashKey_none env f hc
      rw [hg] at h
      simp only [hc] at h
      injection h with h
      exact h.symm
    | some c =>
      obtain ⟨g, hg⟩ := hd f List.mem_cons_self c hc
      rw [hg] at h
      simp only [hc] at h
      split at h
      · exact ih _ h (fun f hf => hd f (List.mem_cons_of_mem _ hf))
      · exact ih _ h (fun f hf => hd f (List.mem_cons_of_mem _ hf))

theorem splitMetrics_ok (env : PlanEnv) (ns : List String) (h : ∀ n ∈ ns, ∃ f, env.getField n = .ok f) : ∃ r, splitMetrics env ns = .ok r := by
  induction ns with
  | nil => exact ⟨_, rfl⟩
  | cons n ns ih =>
    obtain ⟨r, hr⟩ := ih (fun m hm => h m (List.mem_cons_of_mem _ hm))
    obtain ⟨f, hf⟩ := h n List.mem_cons_self
    simp only [splitMetrics]
    rw [hf, hr]
    exact ⟨_, rfl⟩

theorem splitMetrics_mem (env : PlanEnv) (ns : List String) (mg sec : List PField) (h : splitMetrics env ns = .ok (mg, sec)) :
    (∀ f ∈ mg, ∃ n ∈ ns, env.getField n = .ok f ∧ f.merged = true) ∧ (∀ f ∈ sec, ∃ n ∈ ns, env.getField n = .ok f ∧ f.merged = false) := by
  induction ns generalizing mg sec with
  | nil => simp only [splitMetrics, Except.ok.injEq, Prod.mk.injEq] at h; obtain ⟨rfl, rfl⟩ := h; simp
  | cons n ns ih =>
    simp only [splitMetrics] at h
    cases hf : env.getField n with
    | error e => rw [hf] at h; cases h
    | ok f =>
      rw [hf] at h
      simp only at h
      cases hs : splitMetrics env ns with
      | error e => rw [hs] at h; cases h
      | ok p =>
        obtain ⟨a, b⟩ := p
        rw [hs] at h
        obtain ⟨i1, i2⟩ := ih a b hs
        simp only [Except.ok.injEq] at h
        cases hm : f.merged with
        | true =>
          rw [hm] at h
          simp only [if_true, Prod.mk.injEq] at h
          obtain ⟨rfl, rfl⟩ := h
          refine ⟨fun x hx => ?_, fun x hx => ?_⟩
          · rcases List.mem_cons.mp hx with rfl | hx
            · exact ⟨n, List.mem_cons_self, hf, hm⟩
            · obtain ⟨y, hy, e⟩ := i1 x hx; exact ⟨y, List.mem_cons_of_mem _ hy, e⟩
          · obtain ⟨y, hy, e⟩ := i2 x hx; exact ⟨y, List.mem_cons_of_mem _ hy, e⟩
        | false =>
          rw [hm] at h
          simp only [Bool.false_eq_true, if_false, Prod.mk.injEq] at h
          obtain ⟨rfl, rfl⟩ := h
          refine ⟨fun x hx => ?_, fun x hx => ?_⟩
          · obtain ⟨y, hy, e⟩ := i1 x hx; exact ⟨y, List.mem_cons_of_mem _ hy, e⟩
          · rcases List.mem_cons.mp hx with rfl | hx
            · exact ⟨n, List.mem_cons_self, hf, hm⟩
            · obtain ⟨y, hy, e⟩ := i2 x hx; exact ⟨y, List.mem_cons_of_mem _ hy, e⟩

theorem havingMetrics_ok (env : PlanEnv) (a b ns : List String) (h : ∀ n ∈ ns, ∃ f, env.getField n = .ok f) :
    ∃ mg sec, havingMetrics env a b ns = .ok (mg, sec) ∧ (∀ f ∈ mg, ∃ n ∈ ns, env.getField n = .ok f ∧ f.merged = true) ∧
      (∀ f ∈ sec, ∃ n ∈ ns, env.getField n = .ok f ∧ f.merged = false) := by
  induction ns with
  | nil => exact ⟨_, _, rfl, by simp, by simp⟩
  | cons n ns ih =>
    obtain ⟨mg, sec, hr, i1, i2⟩ := ih (fun m hm => h m (List.mem_cons_of_mem _ hm))
    have j1 : ∀ f ∈ mg, ∃ n' ∈ n :: ns, env.getField n' = .ok f ∧ f.merged = true :=
      fun x hx => let ⟨y, hy, e⟩ := i1 x hx; ⟨y, List.mem_cons_of_mem _ hy, e⟩
    have j2 : ∀ f ∈ sec, ∃ n' ∈ n :: ns, env.getField n' = .ok f ∧ f.merged = false :=
      fun x hx => let ⟨y, hy, e⟩ := i2 x hx; ⟨y, List.mem_cons_of_mem _ hy, e⟩
    obtain ⟨f, hf⟩ := h n List.mem_cons_self
    simp only [havingMetrics]
    rw [hf, hr]
    simp only
    split
    · rename_i hc
      refine ⟨_, _, rfl, j1, fun x hx => ?_⟩
      rcases List.mem_cons.mp hx with rfl | hx
      · exact ⟨n, List.mem_cons_self, hf, hc.2⟩
      · exact j2 x hx
    · split
      · rename_i hc
        refine ⟨_, _, rfl, fun x hx => ?_, j2⟩
        rcases List.mem_cons.mp hx with rfl | hx
        · exact ⟨n, List.mem_cons_self, hf, hc.2⟩
        · exact j1 x hx
      · exact ⟨_, _, rfl, j1, j2⟩

/-- C36: a merged query that needs a metric without a canonical date, or one whose reference is not found, is rejected as a query. -/
theorem C36_rejects (env : PlanEnv) (metrics having dimensions : List String) (wheres : List MWhere)
    (hfound : ∀ n ∈ metrics ++ having, ∃ f, env.getField n = .ok f)
    (hids : ∀ n m f g, env.getField n = .ok f → env.getField m = .ok g → f.id = g.id → f = g)
    (hdates : ∀ f c, Needed env metrics having f → f.canon = some c → ∃ b, env.getFieldByName c = .ok b)
    (hbad : (∃ f, Needed env metrics having f ∧ f.canon = none) ∨
      ∃ n ∈ metrics ++ having, ∃ m, env.getField n = .ok m ∧ m.merged = true ∧ none ∈ env.refs m) :
    derivePlan env metrics having dimensions wheres = .error .query := by
  have hkey : ∀ f c, Needed env metrics having f → f.canon = some c → ∃ g, joinHashKey env f = .ok g := by
    intro f c hf hc
    obtain ⟨b, hb⟩ := hdates f c hf hc
    unfold joinHashKey
    rw [hc]
    cases f.measure
    · exact ⟨_, rfl⟩
    · simp only; rw [hb]; exact ⟨_, rfl⟩
  have hplace : placeMetrics env metrics having = .error .query := by
    cases hp : placeMetrics env metrics having with
    | ok p =>
      obtain ⟨mg, sec, q⟩ := p
      obtain ⟨_, _, a3, _, a5, _⟩ := placeMetrics_spec env metrics having mg sec q hp (fun f g n m _ _ hn hm e => hids n m f g hn hm e)
      rcases hbad with ⟨f, hf, hc⟩ | ⟨n, hn, m, hm, hme, hno⟩
      · obtain ⟨k, ⟨c, _, e, _⟩, _⟩ := a3 f hf
        rw [hc] at e; cases e
      · have hmg := a5 n hn m hm hme
        unfold placeMetrics at hp
        cases h1 : splitMetrics env metrics with
        | error e => rw [h1] at hp; cases hp
        | ok p =>
          obtain ⟨m1, s1⟩ := p
          rw [h1] at hp
          simp only at hp
          cases h2 : havingMetrics env (m1.map PField.id) (s1.map PField.id) having with
          | error e => rw [h2] at hp; cases hp
          | ok p =>
            obtain ⟨m2, s2⟩ := p
            rw [h2] at hp
            simp only at hp
            cases h3 : placeMerged env (m1 ++ m2) [] with
            | error e => rw [h3] at hp; cases hp
            | ok q1 =>
              rw [h3] at hp
              simp only at hp
              cases h4 : placeSecondary env (s1 ++ s2) q1 with
              | error e => rw [h4] at hp; cases hp
              | ok q2 =>
                rw [h4] at hp
                simp only [Except.ok.injEq, Prod.mk.injEq] at hp
                rw [← hp.1] at hmg
                exact absurd hno (placeMerged_none env _ _ _ h3 m hmg)
    | error e =>
      unfold placeMetrics at hp
      obtain ⟨⟨m1, s1⟩, h1⟩ := splitMetrics_ok env metrics (fun n hn => hfound n (List.mem_append_left _ hn))
      obtain ⟨m2, s2, h2, b1, b2⟩ := havingMetrics_ok env (m1.map PField.id) (s1.map PField.id) having (fun n hn => hfound n (List.mem_append_right _ hn))
      obtain ⟨c1, c2⟩ := splitMetrics_mem env metrics m1 s1 h1
      rw [h1] at hp
      simp only at hp
      rw [h2] at hp
      simp only at hp
      cases h3 : placeMerged env (m1 ++ m2) [] with
      | error e' =>
        rw [h3] at hp
        injection hp with hp
        subst hp
        rw [placeMerged_error env _ _ _ h3]
        intro m hm f c hf hc
        refine hkey f c ?_ hc
        rcases List.mem_append.mp hm with hm | hm
        · obtain ⟨n, hn, e1, e2⟩ := c1 m hm
          exact ⟨n, List.mem_append_left _ hn, m, e1, .inr ⟨e2, hf⟩⟩
        · obtain ⟨n, hn, e1, e2⟩ := b1 m hm
          exact ⟨n, List.mem_append_right _ hn, m, e1, .inr ⟨e2, hf⟩⟩
      | ok q1 =>
        rw [h3] at hp
        simp only at hp
        cases h4 : placeSecondary env (s1 ++ s2) q1 with
        | ok q2 => rw [h4] at hp; cases hp
        | error e' =>
          rw [h4] at hp
          injection hp with hp
          subst hp
          rw [placeSecondary_error env _ _ _ h4]
          intro f hf c hc
          refine hkey f c ?_ hc
          rcases List.mem_append.mp hf with hf | hf
          · obtain ⟨n, hn, e1, e2⟩ := c2 f hf
            exact ⟨n, List.mem_append_left _ hn, f, e1, .inl ⟨e2, rfl⟩⟩
          · obtain ⟨n, hn, e1, e2⟩ := b2 f hf
            exact ⟨n, List.mem_append_right _ hn, f, e1, .inl ⟨e2, rfl⟩⟩
  unfold derivePlan
  rw [hplace]

theorem dictAppend_keys {V : Type} (d : List (String × List V)) (k k' : String) (v : V) :
    k' ∈ (dictAppend d k v).map (·.1) ↔ k' = k ∨ k' ∈ d.map (·.1) := by
  unfold dictAppend
  exact dictSet_keys d k k' _

theorem dateMapInner_keys (env : PlanEnv) (dst : String) (frs : List String) (acc acc' : List (String × List DimMap) × List String)
    (h : dateMapInner env dst frs acc = .ok acc') (k : String) (hk : k ∈ acc'.1.map (·.1)) : k = dst ∨ k ∈ acc.1.map (·.1) := by
  induction frs generalizing acc with
  | nil => simp only [dateMapInner, Except.ok.injEq] at h; subst h; exact .inr hk
  | cons fr frs ih =>
    simp only [dateMapInner] at h
    split at h
    · exact ih acc h
    · cases hb : env.getFieldByName fr with
      | error e => rw [hb] at h; cases h
      | ok b =>
        rw [hb] at h
        simp only at h
        cases hg : joinHashKey env b with
        | error e => rw [hg] at h; cases h
        | ok g =>
          rw [hg] at h
          rcases ih _ h with h | h
          · exact .inl h
          · exact (dictAppend_keys _ _ _ _).mp h

theorem dateMap_keys (env : PlanEnv) (dates dsts : List String) (acc acc' : List (String × List DimMap) × List String)
    (h : dateMap env dates dsts acc = .ok acc') (k : String) (hk : k ∈ acc'.1.map (·.1)) : k ∈ dsts ∨ k ∈ acc.1.map (·.1) := by
  induction dsts generalizing acc with
  | nil => simp only [dateMap, Except.ok.injEq] at h; subst h; exact .inr hk
  | cons dst dsts ih =>
    simp only [dateMap] at h
    cases hi : dateMapInner env dst dates acc with
    | error e => rw [hi] at h; cases h
    | ok a =>
      rw [hi] at h
      rcases ih a h with h | h
      · exact .inl (List.mem_cons_of_mem _ h)
      · rcases dateMapInner_keys env dst dates acc a hi k h with h | h
        · exact .inl (h ▸ List.mem_cons_self)
        · exact .inr h

theorem mapToUsed_keys (key : String) (m : MapTo) (hs : List String) (fr : String)
    (acc : List (String × List DimMap) × List (String × List (String × String))) (k : String)
    (hk : k ∈ (mapToUsed key m hs fr acc).1.map (·.1)) : k = key ∨ k ∈ acc.1.map (·.1) := by
  induction hs generalizing fr acc with
  | nil => exact .inr hk
  | cons x hs ih =>
    simp only [mapToUsed] at hk
    split at hk
    · rcases ih _ _ hk with h | h
      · exact .inl h
      · exact (dictAppend_keys _ _ _ _).mp h
    · rcases ih _ _ hk with h | h
      · exact .inl h
      · exact (dictAppend_keys _ _ _ _).mp h

theorem mapRefs_keys (used : List String) (key fr : String) (ms : List MapTo)
    (acc : List (String × List DimMap) × List (String × List (String × String))) (k : String)
    (hk : k ∈ (ms.foldl (fun acc m => mapToUsed key m used fr acc) acc).1.map (·.1)) : k = key ∨ k ∈ acc.1.map (·.1) := by
  induction ms generalizing acc with
  | nil => exact .inr hk
  | cons m ms ih =>
    rcases ih _ hk with h | h
    · exact .inl h
    · exact mapToUsed_keys _ _ _ _ _ _ h

theorem addMappings_keys (used : List String) (data : List MapData)
    (acc : List (String × List DimMap) × List (String × List (String × String))) (k : String)
    (hk : k ∈ (data.foldl (fun acc d => d.refs.foldl (fun acc m => mapToUsed d.key m used d.fromHash acc) acc) acc).1.map (·.1)) :
    (∃ d ∈ data, d.key = k) ∨ k ∈ acc.1.map (·.1) := by
  induction data generalizing acc with
  | nil => exact .inr hk
  | cons d data ih =>
    rcases ih _ hk with ⟨x, hx, e⟩ | h
    · exact .inl ⟨x, List.mem_cons_of_mem _ hx, e⟩
    · rcases mapRefs_keys _ _ _ _ _ _ h with h | h
      · exact .inl ⟨d, List.mem_cons_self, h.symm⟩
      · exact .inr h

theorem attachUsed_rejects (env : PlanEnv) (keys : List String) (dm : List (String × List DimMap)) (f : PField) (hs : List String) (b : Bool)
    (qd : List (String × List PField)) (hno : dictGet dm f.key = none) (h : String) (hin : h ∈ hs) (hc : hashContains h f.graphs = false) :
    attachUsed env keys dm f hs b qd = .error .query := by
  induction hs generalizing b qd with
  | nil => cases hin
  | cons x hs ih =>
    simp only [attachUsed]
    split
    · rename_i hx
      rcases List.mem_cons.mp hin with rfl | hin
      · rw [hc] at hx; cases hx
      · exact ih _ _ hin
    · rw [hno]

theorem attachDimensions_each (env : PlanEnv) (dm : List (String × List DimMap)) (dates used : List String) (ds : List String)
    (acc acc' : List (String × List PField) × List (String × List PField)) (h : attachDimensions env dm dates used ds acc = .ok acc') (d : String)
    (hd : d ∈ ds) : ∃ a a', attachDimension env dm dates used d a = .ok a' := by
  induction ds generalizing acc with
  | nil => cases hd
  | cons x ds ih =>
    simp only [attachDimensions] at h
    cases hx : attachDimension env dm dates used x acc with
    | error e => rw [hx] at h; cases h
    | ok a =>
      rw [hx] at h
      rcases List.mem_cons.mp hd with rfl | hd
      · exact ⟨acc, a, hx⟩
      · exact ih _ h hd

/-- C35: a dimension that is not a date of the query, that the model maps to nothing and that cannot be joined in the sub-query of
some metric is not left out of that sub-query: there is no plan. -/
theorem C35_unjoinable (env : PlanEnv) (metrics having dimensions : List String) (wheres : List MWhere)
    (hp : PlainQuery env metrics having dimensions) (two : TwoDates env metrics having)
    (m : PField) (hm : Needed env metrics having m) (date : String) (hdate : PlainDate date) (ns : List ℕ)
    (hk : BelongsTo env m (cteName date (underscoreJoin (ns.map graphName))))
    (d : String) (hd : d ∈ dimensions) (f : PField) (hf : env.getField d = .ok f) (hnd : ¬ QueryDate env metrics having dimensions f.key)
    (hmap : ∀ x ∈ env.mappings, x.key ≠ f.key) (hg : ∀ n ∈ ns, graphName n ∉ f.graphs) :
    ∀ plan, derivePlan env metrics having dimensions wheres ≠ .ok plan := by
  intro plan h
  obtain ⟨mg, sec, q, dimFields, dm0, dm, hashes, used, st⟩ := derivePlan_steps env metrics having dimensions wheres plan h
  obtain ⟨qd, ha, _⟩ := st.attached
  have hnot : f.key ∉ canonDates env mg sec dimFields q := fun hin => hnd (st.dates_only hp.names _ hin)
  have hdm : dictGet dm f.key = none := by
    cases hget : dictGet dm f.key with
    | none => rfl
    | some l =>
      have hin : f.key ∈ dm.map (·.1) := dictGet_isSome.mp (by rw [hget]; rfl)
      obtain ⟨_, rfl, _⟩ := st.mapped
      rcases addMappings_keys _ _ _ _ hin with ⟨x, hx, e⟩ | hin
      · exact absurd e (hmap x hx)
      · rcases dateMap_keys env _ _ _ _ st.dates _ hin with hin | hin
        · exact absurd hin hnot
        · cases hin
  have hc : hashContains (cteName date (underscoreJoin (ns.map graphName))) f.graphs = false := by
    rw [← Bool.not_eq_true, C35_exact date hdate]
    rintro ⟨n, hn, hin⟩
    exact hg n hn hin
  obtain ⟨a, a', he⟩ := attachDimensions_each env dm _ used dimensions _ _ ha d hd
  unfold attachDimension at he
  rw [hf] at he
  simp only at he
  cases hj : joinHashKey env f with
  | error e => rw [hj] at he; cases he
  | ok g =>
    rw [hj] at he
    simp only [if_neg hnot] at he
    rw [attachUsed_rejects env _ dm f used true a.2 hdm _ (st.needed_used hp two m hm _ hk) hc] at he
    cases he

/-! ### Examples -/

def xOrders : PField := ⟨"orders.count", "orders", "count", none, true, some "orders.order", ["subquery_0"], false⟩
def xSessions : PField := ⟨"sessions.count", "sessions", "count", none, true, some "sessions.session", ["subquery_4"], false⟩
def xVisits : PField := ⟨"visits.count", "visits", "count", none, true, some "aisles.visit", ["subquery_5"], false⟩
def xOrderDate : PField := ⟨"orders.order_date", "orders", "order", some "date", false, some "orders.order", ["subquery_0"], false⟩
def xSessionDate : PField := ⟨"sessions.session_date", "sessions", "session", some "date", false, some "sessions.session", ["subquery_4"], false⟩
def xVisitDate : PField := ⟨"aisles.visit_date", "aisles", "visit", some "date", false, some "aisles.visit", ["subquery_5"], false⟩
/-- A dimension of a view that joins to orders but has its own date, mapped into sessions and visits. -/
def xCustomer : PField := ⟨"customers.region", "customers", "region", none, false, some "customers.created", ["subquery_0"], false⟩
def xDevice : PField := ⟨"sessions.region", "sessions", "region", none, false, some "sessions.session", ["subquery_4"], false⟩
def xAisle : PField := ⟨"aisles.region", "aisles", "region", none, false, some "aisles.visit", ["subquery_5"], false⟩
def xUndated : PField := ⟨"orders.odd", "orders", "odd", none, true, none, ["subquery_0"], false⟩
def xBroken : PField := ⟨"orders.broken", "orders", "broken", none, true, some "orders.order", ["merged_result_orders_broken"], true⟩
def xHalf : PField := ⟨"orders.half", "orders", "half", none, true, some "orders.order", ["merged_result_orders_half"], true⟩

/-- Three views that cannot be joined, and one that joins to the first. -/
def xEnv (mapped : Bool) : PlanEnv :=
  tableEnv [("orders", xOrders), ("sessions", xSessions), ("visits", xVisits), ("orders.order_date", xOrderDate), ("sessions.session_date", xSessionDate),
      ("aisles.visit_date", xVisitDate), ("customers.region", xCustomer), ("sessions.region", xDevice), ("aisles.region", xAisle), ("odd", xUndated), ("broken", xBroken),
      ("half", xHalf)]
    [("orders.order", xOrderDate), ("sessions.session", xSessionDate), ("aisles.visit", xVisitDate)]
    [("orders.broken", [some xOrders, none]), ("orders.half", [some xOrders, some xUndated])]
    (if mapped then [⟨"customers.region", "subquery_0", [⟨"sessions.region", "subquery_4"⟩, ⟨"aisles.region", "subquery_5"⟩]⟩] else [])

/-- The date of the dimension `customers.region` is not one of the query's dates; the sub-queries are in the order of the metrics. -/
example : ∃ plan, derivePlan (xEnv true) ["sessions", "orders", "visits"] [] ["customers.region"] [] = .ok plan ∧
    plan.lookup.map (·.1) = ["aisles.visit", "orders.order", "sessions.session", "customers.region"] ∧
    plan.dims = [("sessions_session__subquery_4", [xDevice]), ("orders_order__subquery_0", [xCustomer]), ("aisles_visit__subquery_5", [xAisle])] ∧
    dictGet plan.lookup "customers.region" = some [("sessions.region", "sessions_session__subquery_4"), ("aisles.region", "aisles_visit__subquery_5")] := by
  refine ⟨_, rfl, ?_, ?_, ?_⟩ <;> decide +kernel

/-- Not joinable to visits and not mapped. -/
example : derivePlan (xEnv false) ["orders", "visits"] [] ["customers.region"] [] matches .error .query := by decide +kernel

/-- The three ways to need a metric without a date. -/
example : derivePlan (xEnv true) ["odd"] [] [] [] matches .error .query := by decide +kernel
example : derivePlan (xEnv true) ["broken"] [] [] [] matches .error .query := by decide +kernel
example : derivePlan (xEnv true) ["half"] [] [] [] matches .error .query := by decide +kernel

theorem xOwn : OwnDate (xEnv true) ["sessions", "orders", "visits"] [] xOrders where
  needed := ⟨"orders", by simp, xOrders, rfl, .inl ⟨rfl, rfl⟩⟩
  alone := by
    intro f hf hc
    have := needed_mem _ _ _ _ hf
    have e : neededList (xEnv true) (["sessions", "orders", "visits"] ++ []) = [xSessions, xOrders, xVisits] := by decide +kernel
    rw [e] at this
    simp only [List.mem_cons, List.not_mem_nil, or_false] at this
    rcases this with rfl | rfl | rfl
    · exact absurd hc (by decide)
    · rfl
    · exact absurd hc (by decide)
  direct := by
    intro n hn r hr hm
    simp only [List.append_nil, List.mem_cons, List.not_mem_nil, or_false] at hn
    rcases hn with rfl | rfl | rfl <;> injection hr with hr <;> subst hr <;> cases hm

example : ShareGraph xCustomer xOrders := ⟨"subquery_0", by decide, by decide, by rw [← containsSub_iff]; decide +kernel⟩

example := C35_lookup dEnv _ _ _ _ dPlan dPlan_ok dPlain

example : derivePlan (xEnv true) ["orders", "half"] [] ["orders.order_date"] [] = .error .query :=
  C36_rejects (xEnv true) _ _ _ _ (by
      intro n hn
      simp only [List.append_nil, List.mem_cons, List.not_mem_nil, or_false] at hn
      rcases hn with rfl | rfl
      · exact ⟨xOrders, rfl⟩
      · exact ⟨xHalf, rfl⟩)
    (by
      intro n m f g hn hm
      have h1 := table_mem hn
      have h2 := table_mem hm
      revert h1 h2
      simp only [List.mem_cons, List.not_mem_nil, or_false, Prod.mk.injEq]
      rintro (⟨_, rfl⟩ | ⟨_, rfl⟩ | ⟨_, rfl⟩ | ⟨_, rfl⟩ | ⟨_, rfl⟩ | ⟨_, rfl⟩ | ⟨_, rfl⟩ | ⟨_, rfl⟩ | ⟨_, rfl⟩ | ⟨_, rfl⟩ | ⟨_, rfl⟩ | ⟨_, rfl⟩) (⟨_, rfl⟩ | ⟨_, rfl⟩ | ⟨_, rfl⟩ | ⟨_, rfl⟩ | ⟨_, rfl⟩ | ⟨_, rfl⟩ | ⟨_, rfl⟩ | ⟨_, rfl⟩ | ⟨_, rfl⟩ | ⟨_, rfl⟩ | ⟨_, rfl⟩ | ⟨_, rfl⟩) <;> decide)
    (by
      intro f c hf hc
      have := needed_mem _ _ _ _ hf
      have e : neededList (xEnv true) (["orders", "half"] ++ []) = [xOrders, xOrders, xUndated] := by decide +kernel
      rw [e] at this
      simp only [List.mem_cons, List.not_mem_nil, or_false] at this
      rcases this with rfl | rfl | rfl
      · injection hc with hc; subst hc; exact ⟨xOrderDate, rfl⟩
      · injection hc with hc; subst hc; exact ⟨xOrderDate, rfl⟩
      · cases hc)
    (.inl ⟨xUndated, ⟨"half", by simp, xHalf, rfl, .inr ⟨rfl, by decide +kernel⟩⟩, rfl⟩)

end ML
