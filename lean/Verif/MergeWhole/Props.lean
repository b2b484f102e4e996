import Verif.MergeWhole.Attach
/-
C78: the sub-queries of a merged query fit together. The dimensions.
-/
set_option autoImplicit false
namespace ML
open Spec

variable {env : PlanEnv} {metrics having dimensions : List String} {wheres : List MWhere} {plan : Plan} {mg sec : List PField}
  {q : List (String × List PField)} {dimFields : List PField} {dm0 dm : List (String × List DimMap)} {hashes used : List String}

theorem PlanSteps.attachAll (st : PlanSteps env metrics having dimensions wheres plan mg sec q dimFields dm0 dm hashes used)
    (hp : PlainQuery env metrics having dimensions) (two : TwoDates env metrics having) (ht : TidyQuery env metrics having dimensions)
    (names : List String) (hnames : ∀ n ∈ names, n ∈ dimensions) (acc acc' : List (String × List PField) × List (String × List PField))
    (hok : attachDimensions env dm (canonDates env mg sec dimFields q) used names acc = .ok acc') :
    acc'.1 = acc.1 ∧ (Filled acc.2 → Filled acc'.2) ∧
      (∀ k, ¬ SubQuery env metrics having k → (dictGet acc'.2 k).getD [] = (dictGet acc.2 k).getD []) ∧
      ∀ h, SubQuery env metrics having h → ∃ blocks, (dictGet acc'.2 h).getD [] = (dictGet acc.2 h).getD [] ++ blocks.flatten ∧
        List.Forall₂ (fun d b => b ≠ [] ∧ ∃ f, env.getField d = .ok f ∧ ∀ x ∈ b, Counterpart env metrics having h f x) names blocks := by
  induction names generalizing acc with
  | nil =>
    simp only [attachDimensions, Except.ok.injEq] at hok; subst hok
    exact ⟨rfl, id, fun _ _ => rfl, fun h _ => ⟨[], by simp, .nil⟩⟩
  | cons n names ih =>
    simp only [attachDimensions] at hok
    cases ha : attachDimension env dm (canonDates env mg sec dimFields q) used n acc with
    | error e => rw [ha] at hok; cases hok
    | ok acc1 =>
      rw [ha] at hok
      simp only at hok
      obtain ⟨f, hf, a1, a2, a3, a4⟩ := st.attachOne hp two ht n (hnames n (by simp)) acc acc1 ha
      obtain ⟨i1, i2, i3, i4⟩ := ih (fun m hm => hnames m (by simp [hm])) acc1 hok
      refine ⟨i1.trans a1, i2 ∘ a2, fun k hk => (i3 k hk).trans (a3 k hk), fun h hh => ?_⟩
      obtain ⟨new, n1, n2, n3⟩ := a4 h hh
      obtain ⟨bs, b1, b2⟩ := i4 h hh
      exact ⟨new :: bs, by rw [b1, n2]; simp, .cons ⟨n1, f, hf, n3⟩ b2⟩

theorem Spec.TidyQuery.one (ht : TidyQuery env metrics having dimensions) {d : String} (hd : d ∈ dimensions) {f : PField} (hf : env.getField d = .ok f)
    {h : String} (hh : SubQuery env metrics having h) {x y : PField} (hx : Counterpart env metrics having h f x) (hy : Counterpart env metrics having h f y) :
    x = y := by
  rcases hx with ⟨hk, hx⟩ | ⟨hk, hx⟩ <;> rcases hy with ⟨hk', hy⟩ | ⟨hk', hy⟩
  · rcases hx with ⟨q1, rfl⟩ | ⟨c, hc, hne, q1, g1⟩ <;> rcases hy with ⟨q2, rfl⟩ | ⟨c', hc', hne', q2, g2⟩
    · rfl
    · exact absurd (ht.apart _ _ _ hc' hk q2 q1) hne'
    · exact absurd (ht.apart _ _ _ hc hk q1 q2) hne
    · have := ht.apart _ _ _ hc hc' q1 q2
      subst this
      rw [g1] at g2
      injection g2
  · exact absurd hk hk'
  · exact absurd hk' hk
  · rcases hx with ⟨j, rfl⟩ | ⟨j, m⟩ <;> rcases hy with ⟨j', rfl⟩ | ⟨j', m'⟩
    · rfl
    · exact absurd j j'
    · exact absurd j' j
    · obtain ⟨z, hz⟩ := (ht.others d hd f hf hk).2 h hh j
      rw [(hz x).mp m, (hz y).mp m']

theorem dedupFields_seen (seen b rest : List PField) (x : PField) (h : ∀ y ∈ b, y = x) (hs : x.id ∈ seen.map PField.id) :
    dedupFields seen (b ++ rest) = dedupFields seen rest := by
  induction b with
  | nil => rfl
  | cons y b ih =>
    have := h y (by simp)
    subst this
    simp only [List.cons_append, dedupFields]
    rw [if_pos]
    · exact ih (fun z hz => h z (by simp [hz]))
    · obtain ⟨s, hs, e⟩ := List.mem_map.mp hs
      exact List.any_eq_true.mpr ⟨s, hs, by simpa using e⟩

theorem blocks_dedup (R : String → PField → Prop) (names : List String) (blocks : List (List PField))
    (h : List.Forall₂ (fun d b => b ≠ [] ∧ (∀ x ∈ b, R d x) ∧ ∀ x ∈ b, ∀ y ∈ b, x = y) names blocks)
    (hd : names.Pairwise (fun d d' => ∀ x x', R d x → R d' x' → x.id ≠ x'.id)) (seen : List PField)
    (hs : ∀ d ∈ names, ∀ x, R d x → ∀ s ∈ seen, s.id ≠ x.id) :
    List.Forall₂ R names (dedupFields seen blocks.flatten) := by
  induction h generalizing seen with
  | nil => simp [dedupFields]
  | @cons d b ds bs h1 h2 ih =>
    obtain ⟨hne, hR, heq⟩ := h1
    obtain ⟨x, b, rfl⟩ := List.exists_cons_of_ne_nil hne
    have hx := hR x (by simp)
    obtain ⟨p1, p2⟩ := List.pairwise_cons.mp hd
    have e : dedupFields seen ((x :: b) :: bs).flatten = x :: dedupFields (seen ++ [x]) bs.flatten := by
      rw [List.flatten_cons, List.cons_append]
      rw [dedupFields, if_neg]
      · rw [dedupFields_seen _ b _ x (fun y hy => heq y (by simp [hy]) x (by simp)) (by simp)]
      · have := hs d (by simp) x hx
        simp only [List.any_eq_true, not_exists, decide_eq_true_eq]
        rintro s ⟨hs, e⟩
        exact this s hs (by simpa using e)
    rw [e]
    refine .cons hx (ih p2 _ ?_)
    intro d' hd' y hy s hsm
    rcases List.mem_append.mp hsm with hsm | hsm
    · exact hs d' (by simp [hd']) y hy s hsm
    · rw [List.mem_singleton] at hsm
      subst hsm
      exact p1 d' hd' _ _ hx hy

/-! ### The metrics -/

theorem placeRefs_filled (env : PlanEnv) (fs : List (Option PField)) (q q' : List (String × List PField)) (h : placeRefs env fs q = .ok q')
    (hq : Filled q) : Filled q' := by
  induction fs generalizing q with
  | nil => simp only [placeRefs, Except.ok.injEq] at h; subst h; exact hq
  | cons f fs ih =>
    cases f with
    | none => cases h
    | some f =>
      simp only [placeRefs] at h
      split at h
      · cases h
      · split at h
        · cases h
        · exact ih _ h (hq.append _ _)

theorem placeMerged_filled (env : PlanEnv) (ms : List PField) (q q' : List (String × List PField)) (h : placeMerged env ms q = .ok q')
    (hq : Filled q) : Filled q' := by
  induction ms generalizing q with
  | nil => simp only [placeMerged, Except.ok.injEq] at h; subst h; exact hq
  | cons m ms ih =>
    simp only [placeMerged] at h
    split at h
    · cases h
    · next hr => exact ih _ h (placeRefs_filled env _ _ _ hr hq)

theorem placeSecondary_filled (env : PlanEnv) (ms : List PField) (q q' : List (String × List PField)) (h : placeSecondary env ms q = .ok q')
    (hq : Filled q) : Filled q' := by
  induction ms generalizing q with
  | nil => simp only [placeSecondary, Except.ok.injEq] at h; subst h; exact hq
  | cons m ms ih =>
    simp only [placeSecondary] at h
    split at h
    · cases h
    · split at h
      · cases h
      · split at h
        · exact ih _ h hq
        · exact ih _ h (hq.append _ _)

theorem Filled.dedup {q : List (String × List PField)} (hq : Filled q) : Filled (dedupDict q) := by
  intro k
  rw [dictGet_dedup]
  cases e : dictGet q k with
  | none => simp
  | some l =>
    cases l with
    | nil => exact absurd e (hq k)
    | cons a l => simp [dedupFields]

theorem placeMetrics_filled (env : PlanEnv) (metrics having : List String) (mg sec : List PField) (q : List (String × List PField))
    (h : placeMetrics env metrics having = .ok (mg, sec, q)) : Filled q := by
  unfold placeMetrics at h
  split at h
  · cases h
  · split at h
    · cases h
    · split at h
      · cases h
      · next h1 =>
        split at h
        · cases h
        · next h2 =>
          simp only [Except.ok.injEq, Prod.mk.injEq] at h
          obtain ⟨_, _, rfl⟩ := h
          exact (placeSecondary_filled env _ _ _ h2 (placeMerged_filled env _ _ _ h1 (by intro k; simp [dictGet]))).dedup

/-! ### C78 -/

/-- C78 (a): the sub-queries of a merged query fit together. For any number of metrics, dates, dimensions and mappings: the sub-queries that
compute metrics and those that compute dimensions are the same ones, one for each canonical date of the metrics; and each of them computes,
at the place of each dimension of the query, that dimension's counterpart, and no other dimension. So the dimensions at one place are
about the same thing in all of them. -/
theorem C78_places (env : PlanEnv) (metrics having dimensions : List String) (wheres : List MWhere) (plan : Plan)
    (h : derivePlan env metrics having dimensions wheres = .ok plan) (hp : PlainQuery env metrics having dimensions)
    (two : TwoDates env metrics having) (ht : TidyQuery env metrics having dimensions)
    (hdiff : DimensionsDiffer env metrics having dimensions) :
    (∀ k, k ∈ plan.metrics.map (·.1) ↔ SubQuery env metrics having k) ∧
    (∀ k, k ∈ plan.dims.map (·.1) ↔ dimensions ≠ [] ∧ SubQuery env metrics having k) ∧ (plan.dims.map (·.1)).Nodup ∧
    ∀ k l, (k, l) ∈ plan.dims →
      List.Forall₂ (fun d x => ∃ f, env.getField d = .ok f ∧ Counterpart env metrics having k f x) dimensions l := by
  obtain ⟨mg, sec, q, dimFields, dm0, dm, hashes, used, st⟩ := derivePlan_steps env metrics having dimensions wheres plan h
  obtain ⟨qd, ha, hdims⟩ := st.attached
  obtain ⟨b1, b2, b3, b4⟩ := st.attachAll hp two ht dimensions (fun _ h => h) _ _ ha
  simp only at b1
  have hfill : Filled qd := b2 (by intro k; simp [dictGet])
  have hnod : (qd.map (·.1)).Nodup := attachDimensions_nodup env dm _ used dimensions (q, []) (plan.metrics, qd) ha (by simp)
  have hkeys : plan.dims.map (·.1) = qd.map (·.1) := by rw [hdims]; unfold dedupDict; simp
  obtain ⟨a1, _, a3, _⟩ := placeMetrics_spec env metrics having mg sec q st.placed (fun f g n m _ _ hn hm e => hp.names n m f g hn hm e)
  have hqf := placeMetrics_filled env metrics having mg sec q st.placed
  have hbelongs : ∀ f, Needed env metrics having f → ∀ k, BelongsTo env f k → SubQuery env metrics having k := by
    rintro f hf k ⟨c, g, hc, hg, rfl⟩
    obtain ⟨b, hb, hg'⟩ := hp.hash_date hf hc hg
    exact ⟨c, ⟨f, hf, hc⟩, b, g, hb, hg', rfl⟩
  refine ⟨?_, ?_, by rw [hkeys]; exact hnod, ?_⟩
  · intro k
    rw [b1]
    constructor
    · intro hk
      obtain ⟨⟨k', l⟩, hkl, rfl⟩ := List.mem_map.mp hk
      have hl : l ≠ [] := by
        rintro rfl
        exact hqf k' (dictGet_of_mem a1.nodup hkl)
      obtain ⟨f, l, rfl⟩ := List.exists_cons_of_ne_nil hl
      obtain ⟨p1, p2⟩ := a1.place k' _ hkl f (by simp)
      exact hbelongs f p2 k' p1
    · rintro ⟨c, ⟨f, hf, hc⟩, hq⟩
      obtain ⟨k', ⟨c', g, hc', hg, rfl⟩, l, hl, _⟩ := a3 f hf
      rw [hc] at hc'
      injection hc' with hc'
      subst hc'
      obtain ⟨b, hb, hg'⟩ := hp.hash_date hf hc hg
      rw [hq.unique ⟨b, g, hb, hg', rfl⟩]
      exact List.mem_map.mpr ⟨_, hl, rfl⟩
  · intro k
    rw [hkeys]
    constructor
    · intro hk
      obtain ⟨⟨k', l⟩, hkl, rfl⟩ := List.mem_map.mp hk
      have hget := dictGet_of_mem hnod hkl
      have hl : l ≠ [] := by
        rintro rfl
        exact hfill k' hget
      have hsub : SubQuery env metrics having k' := by
        by_contra hns
        have := b3 k' hns
        simp only at this
        rw [hget] at this
        exact hl (by simpa [dictGet] using this)
      refine ⟨?_, hsub⟩
      rintro rfl
      simp only [attachDimensions, Except.ok.injEq, Prod.mk.injEq] at ha
      rw [← ha.2] at hkl
      cases hkl
    · rintro ⟨hne, hs⟩
      obtain ⟨bs, e1, e2⟩ := b4 k hs
      simp only at e1
      cases hget : dictGet qd k with
      | some l => exact List.mem_map.mpr ⟨_, dictGet_mem hget, rfl⟩
      | none =>
        exfalso
        rw [hget] at e1
        cases e2 with
        | nil => exact hne rfl
        | cons hb _ =>
          apply hb.1
          have := congrArg List.length e1
          simp [dictGet] at this
          exact List.length_eq_zero_iff.mp (by omega)
  · intro k l hkl
    have hk : k ∈ qd.map (·.1) := by rw [← hkeys]; exact List.mem_map.mpr ⟨_, hkl, rfl⟩
    obtain ⟨⟨k', l0⟩, hkl0, e0⟩ := List.mem_map.mp hk
    simp only at e0
    subst e0
    have hget := dictGet_of_mem hnod hkl0
    have hsub : SubQuery env metrics having k' := by
      by_contra hns
      have := b3 k' hns
      simp only at this
      rw [hget] at this
      have hl : l0 = [] := by simpa [dictGet] using this
      subst hl
      exact hfill k' hget
    have hl : l = dedupFields [] l0 := by
      have h1 : dictGet plan.dims k' = some l := dictGet_of_mem (by rw [hkeys]; exact hnod) hkl
      rw [hdims, dictGet_dedup, hget] at h1
      simpa using h1.symm
    obtain ⟨bs, e1, e2⟩ := b4 k' hsub
    simp only at e1
    rw [hget] at e1
    have e1' : l0 = bs.flatten := by simpa [dictGet] using e1
    rw [hl, e1']
    refine blocks_dedup _ dimensions bs ?_ ?_ [] (by simp)
    · have : ∀ names, (∀ n ∈ names, n ∈ dimensions) → ∀ bs,
          List.Forall₂ (fun d b => b ≠ [] ∧ ∃ f, env.getField d = .ok f ∧ ∀ x ∈ b, Counterpart env metrics having k' f x) names bs →
          List.Forall₂ (fun d b => b ≠ [] ∧ (∀ x ∈ b, ∃ f, env.getField d = .ok f ∧ Counterpart env metrics having k' f x) ∧ ∀ x ∈ b, ∀ y ∈ b, x = y)
            names bs := by
        intro names hn bs hb
        induction hb with
        | nil => exact .nil
        | cons h1 _ ih =>
          obtain ⟨hne, f, hf, hx⟩ := h1
          exact .cons ⟨hne, fun x hx' => ⟨f, hf, hx x hx'⟩, fun x hx' y hy' => ht.one (hn _ (by simp)) hf hsub (hx x hx') (hx y hy')⟩
            (ih (fun n hn' => hn n (by simp [hn'])))
      exact this dimensions (fun _ h => h) bs e2
    · refine (hdiff k' hsub).imp ?_
      rintro d d' hdd x x' ⟨f, hf, hx⟩ ⟨f', hf', hx'⟩
      exact hdd f f' x x' hf hf' hx hx'

end ML
