import Verif.MergeWhole.Names
import Verif.MergeWhole.Props
/-
C78: the sub-queries of a merged query fit together. Their names, what each is asked for, and the definition of the statement.
-/
set_option autoImplicit false
namespace ML
open Spec

section
variable {Q : Type}

theorem joinHashes_nodup (plan : Plan) (h : (plan.metrics.map (·.1)).Nodup) : (joinHashes plan).Nodup := addNewHashes_nodup _ _ h

theorem joinHashes_mem (plan : Plan) (k : String) : k ∈ joinHashes plan ↔ k ∈ plan.metrics.map (·.1) ∨ k ∈ plan.dims.map (·.1) :=
  addNewHashes_mem _ _ _

/-- A sub-query of the plan was written as the statement `s`. (for the proofs; it models no file in /repo) -/
def WrittenAs (write : SubAsk → Res (Q × Warehouse)) (plan : Plan) (h : String) (s : Q) (w : Warehouse) : Prop :=
  ∃ a, subAsk plan h = .ok a ∧ write a = .ok (s, w)

theorem writeSubs_spec (write : SubAsk → Res (Q × Warehouse)) (plan : Plan) (all : List String) (hn : all.Nodup) (hs : List String)
    (hnd : hs.Nodup) (acc r : List String × List (String × Q) × Option Warehouse)
    (hacc : ∀ h ∈ hs, h ∈ all → shown all h ∉ acc.2.1.map (·.1))
    (hok : writeSubs write plan (readabilityLookup all) hs acc = .ok r) :
    (∀ h ∈ hs, h ∈ all) ∧ r.1 = acc.1 ++ hs.map (shown all) ∧
    ∃ ss : List (Q × Warehouse), List.Forall₂ (fun h s => WrittenAs write plan h s.1 s.2) hs ss ∧
      r.2.1 = acc.2.1 ++ (hs.zip ss).map (fun p => (shown all p.1, p.2.1)) ∧
      (hs = [] → r.2.2 = acc.2.2) ∧ (∀ s, ss.getLast? = some s → r.2.2 = some s.2) := by
  induction hs generalizing acc with
  | nil =>
    simp only [writeSubs, Except.ok.injEq] at hok; subst hok
    exact ⟨by simp, by simp, [], .nil, by simp, fun _ => rfl, by simp⟩
  | cons h hs ih =>
    simp only [writeSubs] at hok
    cases ha : subAsk plan h with
    | error e => rw [ha] at hok; cases hok
    | ok a =>
      rw [ha] at hok
      simp only at hok
      cases hw : write a with
      | error e => rw [hw] at hok; cases hok
      | ok p =>
        obtain ⟨s, w⟩ := p
        rw [hw] at hok
        simp only at hok
        cases hr : readable (readabilityLookup all) h with
        | error e => rw [hr] at hok; cases hok
        | ok n =>
          rw [hr] at hok
          simp only at hok
          obtain ⟨h1, rfl⟩ := (readable_iff all h n hn).mp hr
          obtain ⟨hnot, hnd'⟩ := List.nodup_cons.mp hnd
          rw [dictSet_fresh_key _ _ _ (hacc h (by simp) h1)] at hok
          obtain ⟨i1, i2, ss, i3, i4, i5, i6⟩ := ih hnd' _ (by
            intro k hk hin
            simp only [List.map_append, List.map_cons, List.map_nil, List.mem_append, List.mem_singleton, not_or]
            exact ⟨hacc k (by simp [hk]) hin, fun e => hnot (shown_inj all hn k h hin h1 e ▸ hk)⟩) hok
          refine ⟨?_, ?_, (s, w) :: ss, .cons ⟨a, ha, hw⟩ i3, ?_, by simp, ?_⟩
          · intro k hk
            rcases List.mem_cons.mp hk with rfl | hk
            · exact h1
            · exact i1 k hk
          · rw [i2]; simp
          · rw [i4]; simp
          · intro x hx
            cases ss with
            | nil =>
              simp only [List.getLast?_singleton, Option.some.injEq] at hx
              subst hx
              cases i3
              rw [i5 rfl]
            | cons y ss =>
              rw [List.getLast?_cons_cons] at hx
              exact i6 x hx

theorem writeSubs_ok (write : SubAsk → Res (Q × Warehouse)) (plan : Plan) (all : List String) (hn : all.Nodup) (hs : List String)
    (acc : List String × List (String × Q) × Option Warehouse) (hin : ∀ h ∈ hs, h ∈ all)
    (hw : ∀ h ∈ hs, ∃ a, subAsk plan h = .ok a ∧ ∃ r, write a = .ok r) :
    ∃ r, writeSubs write plan (readabilityLookup all) hs acc = .ok r := by
  induction hs generalizing acc with
  | nil => exact ⟨_, rfl⟩
  | cons h hs ih =>
    obtain ⟨a, ha, ⟨s, w⟩, hwa⟩ := hw h (by simp)
    simp only [writeSubs]
    rw [ha]
    simp only
    rw [hwa]
    simp only
    rw [(readable_iff all h _ hn).mpr ⟨hin h (by simp), rfl⟩]
    exact ih _ (fun k hk => hin k (by simp [hk])) (fun k hk => hw k (by simp [hk]))

/-- All that is known of the definition of the statement. -/
theorem mergedConfig_spec (write : SubAsk → Res (Q × Warehouse)) (plan : Plan) (semicolon : Bool) (c : MergedConfig Q)
    (hmk : (plan.metrics.map (·.1)).Nodup) (hdk : (plan.dims.map (·.1)).Nodup) (h : mergedConfig write plan semicolon = .ok c) :
    c.metrics = plan.metrics.map (fun p => (shown (joinHashes plan) p.1, p.2)) ∧
    c.dims = plan.dims.map (fun p => (shown (joinHashes plan) p.1, p.2)) ∧
    (∀ p ∈ plan.lookup, ∀ x ∈ p.2, x.2 ∈ joinHashes plan) ∧
    c.mapping = plan.lookup.map (fun p => (p.1, p.2.map (fun x => ⟨shown (joinHashes plan) x.2, x.1⟩))) ∧
    c.hashes.Perm ((joinHashes plan).map (shown (joinHashes plan))) ∧ c.hashes.Pairwise (· ≤ ·) ∧
    ∃ ss : List (Q × Warehouse), List.Forall₂ (fun h s => WrittenAs write plan h s.1 s.2) (joinHashes plan) ss ∧
      c.queries = ((joinHashes plan).zip ss).map (fun p => (shown (joinHashes plan) p.1, p.2.1)) ∧
      (∃ s, ss.getLast? = some s ∧ c.warehouse = s.2) ∧ c.semicolon = (semicolon && !(c.warehouse = .druid || c.warehouse = .trino)) := by
  have hn := joinHashes_nodup plan hmk
  unfold mergedConfig at h
  simp only at h
  cases h1 : writeSubs write plan (readabilityLookup (joinHashes plan)) (joinHashes plan) ([], [], none) with
  | error e => rw [h1] at h; cases h
  | ok r =>
    obtain ⟨names, queries, w⟩ := r
    rw [h1] at h
    simp only at h
    obtain ⟨w1, w2, ss, w3, w4, w5, w6⟩ := writeSubs_spec write plan _ hn _ hn _ _ (by simp) h1
    cases h2 : renameKeys (readabilityLookup (joinHashes plan)) plan.metrics [] with
    | error e => rw [h2] at h; cases h
    | ok ms =>
      rw [h2] at h
      simp only at h
      cases h3 : renameKeys (readabilityLookup (joinHashes plan)) plan.dims [] with
      | error e => rw [h3] at h; cases h
      | ok ds =>
        rw [h3] at h
        simp only at h
        cases h4 : renameMapping (readabilityLookup (joinHashes plan)) plan.lookup with
        | error e => rw [h4] at h; cases h
        | ok mp =>
          rw [h4] at h
          simp only at h
          cases w with
          | none => cases h
          | some w =>
            simp only [Except.ok.injEq] at h
            subst h
            obtain ⟨_, rfl⟩ := renameKeys_eq _ hn _ _ _ hmk (by simp) h2
            obtain ⟨_, rfl⟩ := renameKeys_eq _ hn _ _ _ hdk (by simp) h3
            obtain ⟨m1, rfl⟩ := (renameMapping_iff _ hn _ _).mp h4
            simp only [List.nil_append] at w2 w4
            refine ⟨by simp, by simp, m1, rfl, ?_, ?_, ss, w3, w4, ?_, rfl⟩
            · simp only
              rw [w2]
              exact List.perm_insertionSort _ _
            · exact List.pairwise_insertionSort _ _
            · cases hl : ss.getLast? with
              | none =>
                rw [List.getLast?_eq_none_iff] at hl
                subst hl
                generalize hj : joinHashes plan = jh at w3
                cases w3
                have := w5 hj
                simp only at this
                cases this
              | some s =>
                have := w6 s hl
                simp only [Option.some.injEq] at this
                exact ⟨s, rfl, this⟩

/-! ### What is recorded -/

theorem dateMapInner_nodup (env : PlanEnv) (dst : String) (frs : List String) (acc acc' : List (String × List DimMap) × List String)
    (h : dateMapInner env dst frs acc = .ok acc') (hn : (acc.1.map (·.1)).Nodup) : (acc'.1.map (·.1)).Nodup := by
  induction frs generalizing acc with
  | nil => simp only [dateMapInner, Except.ok.injEq] at h; subst h; exact hn
  | cons fr frs ih =>
    simp only [dateMapInner] at h
    split at h
    · exact ih _ h hn
    · split at h
      · cases h
      · split at h
        · cases h
        · exact ih _ h (dictAppend_nodup _ hn _ _)

theorem dateMap_nodup (env : PlanEnv) (dates dsts : List String) (acc acc' : List (String × List DimMap) × List String)
    (h : dateMap env dates dsts acc = .ok acc') (hn : (acc.1.map (·.1)).Nodup) : (acc'.1.map (·.1)).Nodup := by
  induction dsts generalizing acc with
  | nil => simp only [dateMap, Except.ok.injEq] at h; subst h; exact hn
  | cons d dsts ih =>
    simp only [dateMap] at h
    split at h
    · cases h
    · next hi => exact ih _ h (dateMapInner_nodup env d dates _ _ hi hn)

theorem mapToUsed_nodup (key : String) (m : MapTo) (hs : List String) (fr : String)
    (acc : List (String × List DimMap) × List (String × List (String × String))) (hn : (acc.2.map (·.1)).Nodup) :
    ((mapToUsed key m hs fr acc).2.map (·.1)).Nodup := by
  induction hs generalizing fr acc with
  | nil => exact hn
  | cons h hs ih =>
    simp only [mapToUsed]
    split
    · exact ih _ _ (dictAppend_nodup _ hn _ _)
    · exact ih _ _ hn

theorem addMappings_nodup (used : List String) (data : List MapData) (acc : List (String × List DimMap) × List (String × List (String × String)))
    (hn : (acc.2.map (·.1)).Nodup) :
    ((data.foldl (fun acc d => d.refs.foldl (fun acc m => mapToUsed d.key m used d.fromHash acc) acc) acc).2.map (·.1)).Nodup := by
  induction data generalizing acc with
  | nil => exact hn
  | cons d data ih =>
    rw [List.foldl_cons]
    apply ih
    have : ∀ (refs : List MapTo) (acc : List (String × List DimMap) × List (String × List (String × String))), (acc.2.map (·.1)).Nodup →
        ((refs.foldl (fun acc m => mapToUsed d.key m used d.fromHash acc) acc).2.map (·.1)).Nodup := by
      intro refs
      induction refs with
      | nil => intro acc h; exact h
      | cons m refs ih2 => intro acc h; rw [List.foldl_cons]; exact ih2 _ (mapToUsed_nodup _ _ _ _ _ h)
    exact this d.refs acc hn

theorem PlanSteps.lookup_nodup {env : PlanEnv} {metrics having dimensions : List String} {wheres : List MWhere} {plan : Plan} {mg sec : List PField}
    {q : List (String × List PField)} {dimFields : List PField} {dm0 dm : List (String × List DimMap)} {hashes used : List String}
    (st : PlanSteps env metrics having dimensions wheres plan mg sec q dimFields dm0 dm hashes used) : (plan.lookup.map (·.1)).Nodup := by
  obtain ⟨_, _, rfl, e⟩ := st.mapped
  rw [e]
  unfold addMappings
  apply addMappings_nodup
  rw [List.map_map]
  exact dateMap_nodup env _ _ _ _ st.dates (by simp)

/-! ### C78 -/

theorem plan_keys (env : PlanEnv) (metrics having dimensions : List String) (wheres : List MWhere) (plan : Plan)
    (h : derivePlan env metrics having dimensions wheres = .ok plan) (hp : PlainQuery env metrics having dimensions) :
    (plan.metrics.map (·.1)).Nodup ∧ (plan.dims.map (·.1)).Nodup ∧
    ∀ k ∈ joinHashes plan, ∃ ws, dictGet plan.where_ k = some ws := by
  obtain ⟨mg, sec, q, dimFields, dm0, dm, hashes, used, st⟩ := derivePlan_steps env metrics having dimensions wheres plan h
  obtain ⟨qd, ha, hdims⟩ := st.attached
  obtain ⟨a1, _⟩ := placeMetrics_spec env metrics having mg sec q st.placed (fun f g n m _ _ hn hm e => hp.names n m f g hn hm e)
  refine ⟨(attachDimensions_metrics env dm _ used st.used_nodup dimensions (q, []) (plan.metrics, qd) ha hp.dims).1 a1.nodup, ?_, ?_⟩
  · have := attachDimensions_nodup env dm _ used dimensions (q, []) (plan.metrics, qd) ha (by simp)
    rw [hdims]
    unfold dedupDict
    rw [List.map_map]
    exact this
  · intro k hk
    have hin : k ∈ (plan.metrics.map (·.1) ++ plan.dims.map (·.1)).reverse.dedup.reverse := by
      rw [List.mem_reverse, List.mem_dedup, List.mem_reverse, List.mem_append]
      exact (joinHashes_mem plan k).mp hk
    obtain ⟨w1, _⟩ := allWheres_spec env _ _ _ _ _ st.wheres
    rw [← w1] at hin
    obtain ⟨p, hp, rfl⟩ := List.mem_map.mp hin
    obtain ⟨v, hv⟩ := Option.isSome_iff_exists.mp (dictGet_isSome.mpr (List.mem_map.mpr ⟨p, hp, rfl⟩))
    exact ⟨v, hv⟩

/-- C78 (b): every planned sub-query is in the statement exactly once, under a name of its own that begins with its date; it is asked for
exactly its metrics, its dimensions and its conditions, with no filter on metrics and no limit; nothing else is in the statement; and
each metric and dimension is read from the sub-query that computes it. -/
theorem C78_subqueries (write : SubAsk → Res (Q × Warehouse)) (env : PlanEnv) (metrics having dimensions : List String) (wheres : List MWhere)
    (semicolon : Bool) (c : MergedConfig Q) (h : resolveMerged write env false metrics having dimensions wheres semicolon = .ok c)
    (hp : PlainQuery env metrics having dimensions) :
    ∃ plan, derivePlan env metrics having dimensions wheres = .ok plan ∧
    ∃ name : String → String,
      (∀ a b, a ∈ plan.metrics.map (·.1) ++ plan.dims.map (·.1) → b ∈ plan.metrics.map (·.1) ++ plan.dims.map (·.1) → name a = name b → a = b) ∧
      (∀ (date : String) (ns : List ℕ), TidyDate date → cteName date (underscoreJoin (ns.map graphName)) ∈ plan.metrics.map (·.1) ++ plan.dims.map (·.1) →
        ∃ i, i < c.hashes.length ∧ name (cteName date (underscoreJoin (ns.map graphName))) = dotsToUnderscores date ++ "__cte_subquery_" ++ toString i) ∧
      c.hashes.Nodup ∧ (∀ n, n ∈ c.hashes ↔ ∃ k ∈ plan.metrics.map (·.1) ++ plan.dims.map (·.1), n = name k) ∧
      (c.queries.map (·.1)).Nodup ∧
      (∀ n s, (n, s) ∈ c.queries ↔ ∃ k ∈ plan.metrics.map (·.1) ++ plan.dims.map (·.1), n = name k ∧ ∃ ws w, dictGet plan.where_ k = some ws ∧
        write ⟨((dictGet plan.metrics k).getD []).map PField.id, ((dictGet plan.dims k).getD []).map PField.id, ws, [], none⟩ = .ok (s, w)) ∧
      c.metrics = plan.metrics.map (fun p => (name p.1, p.2)) ∧ c.dims = plan.dims.map (fun p => (name p.1, p.2)) := by
  unfold resolveMerged at h
  rw [if_neg (by decide)] at h
  cases hd : derivePlan env metrics having dimensions wheres with
  | error e => rw [hd] at h; cases h
  | ok plan =>
    rw [hd] at h
    simp only at h
    obtain ⟨k1, k2, k3⟩ := plan_keys env metrics having dimensions wheres plan hd hp
    have hn := joinHashes_nodup plan k1
    have hmem : ∀ k, k ∈ plan.metrics.map (·.1) ++ plan.dims.map (·.1) ↔ k ∈ joinHashes plan := by
      intro k; rw [List.mem_append, joinHashes_mem]
    obtain ⟨c1, c2, _, _, c5, _, ss, c7, c8, _⟩ := mergedConfig_spec write plan semicolon c k1 k2 h
    have hnod : ((joinHashes plan).map (shown (joinHashes plan))).Nodup :=
      (List.nodup_map_iff_inj_on hn).mpr (fun a ha b hb e => shown_inj _ hn a b ha hb e)
    have hlen := c7.length_eq
    refine ⟨plan, rfl, shown (joinHashes plan), ?_, ?_, c5.nodup_iff.mpr hnod, ?_, ?_, ?_, c1, c2⟩
    · intro a b ha hb e
      exact shown_inj _ hn a b ((hmem a).mp ha) ((hmem b).mp hb) e
    · intro date ns ht hk
      rw [c5.length_eq, List.length_map]
      exact shown_date _ hn date ht ns ((hmem _).mp hk)
    · intro n
      rw [c5.mem_iff, List.mem_map]
      simp only [hmem]
      constructor
      · rintro ⟨k, hk, rfl⟩; exact ⟨k, hk, rfl⟩
      · rintro ⟨k, hk, rfl⟩; exact ⟨k, hk, rfl⟩
    · rw [c8, List.map_map]
      have : (((joinHashes plan).zip ss).map ((fun x => x.1) ∘ fun p => (shown (joinHashes plan) p.1, p.2.1))) =
          (joinHashes plan).map (shown (joinHashes plan)) := by
        have h1 : ((joinHashes plan).zip ss).map Prod.fst = joinHashes plan := List.map_fst_zip (le_of_eq hlen)
        have h2 := congrArg (List.map (shown (joinHashes plan))) h1
        rw [List.map_map] at h2
        exact h2
      rw [this]
      exact hnod
    · intro n s
      rw [c8, List.mem_map]
      have hask : ∀ k a, subAsk plan k = .ok a ↔ ∃ ws, dictGet plan.where_ k = some ws ∧
          a = ⟨((dictGet plan.metrics k).getD []).map PField.id, ((dictGet plan.dims k).getD []).map PField.id, ws, [], none⟩ := by
        intro k a
        unfold subAsk
        cases dictGet plan.where_ k with
        | none => simp
        | some ws => simp [eq_comm]
      constructor
      · rintro ⟨⟨k, ⟨s', w⟩⟩, hz, e⟩
        simp only [Prod.mk.injEq] at e
        obtain ⟨rfl, rfl⟩ := e
        obtain ⟨a, ha, hw⟩ := (List.forall₂_iff_zip.mp c7).2 hz
        obtain ⟨ws, hws, rfl⟩ := (hask k a).mp ha
        exact ⟨k, (hmem k).mpr (List.of_mem_zip hz).1, rfl, ws, w, hws, hw⟩
      · rintro ⟨k, hk, rfl, ws, w, hws, hw⟩
        have hk' := (hmem k).mp hk
        obtain ⟨i, hi, e⟩ := List.getElem_of_mem hk'
        have hi' : i < ss.length := by rw [← hlen]; exact hi
        have hz : (k, ss[i]) ∈ (joinHashes plan).zip ss := by
          rw [← e]
          have : i < ((joinHashes plan).zip ss).length := by rw [List.length_zip, ← hlen]; simpa using hi
          have h2 := List.getElem_mem this
          rwa [List.getElem_zip] at h2
        obtain ⟨a, ha, hw'⟩ := (List.forall₂_iff_zip.mp c7).2 hz
        obtain ⟨ws', hws', rfl⟩ := (hask k a).mp ha
        rw [hws] at hws'
        injection hws' with hws'
        subst hws'
        rw [hw] at hw'
        injection hw' with hw'
        exact ⟨_, hz, by simp only [Prod.mk.injEq, true_and]; exact (congrArg Prod.fst hw').symm⟩

/-- C78 (c): a merged query that can be planned is answered, whenever its sub-queries are. No name is missing on the way. -/
theorem C78_answered (write : SubAsk → Res (Q × Warehouse)) (env : PlanEnv) (metrics having dimensions : List String) (wheres : List MWhere)
    (semicolon : Bool) (plan : Plan) (h : derivePlan env metrics having dimensions wheres = .ok plan)
    (hp : PlainQuery env metrics having dimensions) (two : TwoDates env metrics having) (ht : TidyQuery env metrics having dimensions)
    (hdiff : DimensionsDiffer env metrics having dimensions)
    (hw : ∀ k, SubQuery env metrics having k → ∀ ws, dictGet plan.where_ k = some ws → ∃ r,
      write ⟨((dictGet plan.metrics k).getD []).map PField.id, ((dictGet plan.dims k).getD []).map PField.id, ws, [], none⟩ = .ok r) :
    ∃ c, resolveMerged write env false metrics having dimensions wheres semicolon = .ok c := by
  obtain ⟨p1, p2, _⟩ := C78_places env metrics having dimensions wheres plan h hp two ht hdiff
  obtain ⟨k1, k2, k3⟩ := plan_keys env metrics having dimensions wheres plan h hp
  have hn := joinHashes_nodup plan k1
  have hsub : ∀ k, k ∈ joinHashes plan ↔ SubQuery env metrics having k := by
    intro k
    rw [joinHashes_mem, p1, p2]
    constructor
    · rintro (h | ⟨_, h⟩) <;> exact h
    · exact .inl
  unfold resolveMerged
  rw [if_neg (by decide), h]
  simp only
  unfold mergedConfig
  simp only
  obtain ⟨r, hr⟩ := writeSubs_ok write plan _ hn (joinHashes plan) ([], [], none) (fun _ h => h) (by
    intro k hk
    obtain ⟨ws, hws⟩ := k3 k hk
    obtain ⟨r, hr⟩ := hw k ((hsub k).mp hk) ws hws
    exact ⟨_, by unfold subAsk; rw [hws], r, hr⟩)
  rw [hr]
  obtain ⟨names, queries, w⟩ := r
  simp only
  obtain ⟨ms, hms⟩ := renameKeys_ok (joinHashes plan) hn plan.metrics [] (fun k hk => (joinHashes_mem plan k).mpr (.inl hk))
  obtain ⟨ds, hds⟩ := renameKeys_ok (joinHashes plan) hn plan.dims [] (fun k hk => (joinHashes_mem plan k).mpr (.inr hk))
  rw [hms, hds]
  simp only
  have hlook : ∀ p ∈ plan.lookup, ∀ x ∈ p.2, x.2 ∈ joinHashes plan := by
    intro p hpl x hx
    obtain ⟨mg, sec, q, dimFields, dm0, dm, hashes, used, st⟩ := derivePlan_steps env metrics having dimensions wheres plan h
    obtain ⟨D, hD, hlk⟩ := C35_lookup env metrics having dimensions wheres plan h hp
    have hDm : ∀ c, D c → MetricDate env metrics having c := by
      intro c hc
      rcases hD.only c hc with h | ⟨d, hd, f, hf, e, hno⟩
      · exact h
      · rcases ht.near d hd f c hf e with h | ⟨m, m1, m2⟩
        · exact h
        · exact absurd m2 (hno m m1)
    have hget := dictGet_of_mem (st.lookup_nodup) hpl
    have hin : (x.1, x.2) ∈ (dictGet plan.lookup p.1).getD [] := by rw [hget]; exact hx
    rw [hsub]
    rcases (hlk p.1 x.1 x.2).mp hin with ⟨_, hf, _, hq⟩ | ⟨_, _, _, _, _, _, ⟨c, _, hc, _, _, hq⟩, _⟩
    · exact ⟨_, hDm _ hf, hq⟩
    · exact ⟨c, hDm c hc, hq⟩
  rw [(renameMapping_iff _ hn _ _).mpr ⟨hlook, rfl⟩]
  simp only
  cases w with
  | some w => exact ⟨_, rfl⟩
  | none =>
    exfalso
    obtain ⟨_, _, ss, w3, _, _, w6⟩ := writeSubs_spec write plan _ hn _ hn _ _ (by simp) hr
    cases hl : ss.getLast? with
    | none =>
      rw [List.getLast?_eq_none_iff] at hl
      subst hl
      generalize hj : joinHashes plan = jh at w3
      cases w3
      obtain ⟨f, _, hf, _⟩ := two
      obtain ⟨mg, sec, q, dimFields, dm0, dm, hashes, used, st⟩ := derivePlan_steps env metrics having dimensions wheres plan h
      obtain ⟨_, _, a3, _⟩ := placeMetrics_spec env metrics having mg sec q st.placed (fun f g n m _ _ hn hm e => hp.names n m f g hn hm e)
      obtain ⟨k, ⟨c, g, hc, hg, rfl⟩, _⟩ := a3 f hf
      obtain ⟨b, hb, hg'⟩ := hp.hash_date hf hc hg
      have := (hsub (cteName c g)).mpr ⟨c, ⟨f, hf, hc⟩, b, g, hb, hg', rfl⟩
      rw [hj] at this
      cases this
    | some s =>
      have := w6 s hl
      cases this

/-- C78 (e): the statement is for the warehouse of one of the sub-queries, and ends with a semicolon if that was asked for and the
warehouse is neither Druid nor Trino. -/
theorem C78_warehouse (write : SubAsk → Res (Q × Warehouse)) (env : PlanEnv) (metrics having dimensions : List String) (wheres : List MWhere)
    (semicolon : Bool) (c : MergedConfig Q) (h : resolveMerged write env false metrics having dimensions wheres semicolon = .ok c)
    (hp : PlainQuery env metrics having dimensions) :
    (∃ a s, write a = .ok (s, c.warehouse) ∧ ∃ n, (n, s) ∈ c.queries) ∧
    (c.semicolon = true ↔ semicolon = true ∧ c.warehouse ≠ .druid ∧ c.warehouse ≠ .trino) := by
  unfold resolveMerged at h
  rw [if_neg (by decide)] at h
  cases hd : derivePlan env metrics having dimensions wheres with
  | error e => rw [hd] at h; cases h
  | ok plan =>
    rw [hd] at h
    simp only at h
    obtain ⟨k1, k2, k3⟩ := plan_keys env metrics having dimensions wheres plan hd hp
    obtain ⟨_, _, _, _, _, _, ss, c7, c8, ⟨s, hs, hw⟩, c10⟩ := mergedConfig_spec write plan semicolon c k1 k2 h
    constructor
    · have hmem := List.mem_of_getLast? hs
      obtain ⟨i, hi, e⟩ := List.getElem_of_mem hmem
      have hi' : i < (joinHashes plan).length := by rw [c7.length_eq]; exact hi
      have hz : ((joinHashes plan)[i], s) ∈ (joinHashes plan).zip ss := by
        rw [← e]
        have : i < ((joinHashes plan).zip ss).length := by rw [List.length_zip, c7.length_eq]; simpa using hi
        have h2 := List.getElem_mem this
        rwa [List.getElem_zip] at h2
      obtain ⟨a, _, ha⟩ := (List.forall₂_iff_zip.mp c7).2 hz
      refine ⟨a, s.1, by rw [hw]; exact ha, shown (joinHashes plan) (joinHashes plan)[i], ?_⟩
      rw [c8]
      exact List.mem_map.mpr ⟨_, hz, rfl⟩
    · rw [c10]
      simp [not_or]

/-- C78 (d): a merged query for a funnel is refused. -/
theorem C78_funnel (write : SubAsk → Res (Q × Warehouse)) (env : PlanEnv) (metrics having dimensions : List String) (wheres : List MWhere)
    (semicolon : Bool) : resolveMerged write env true metrics having dimensions wheres semicolon = .error .query := rfl

/-- C78 (d): nor is there a definition of nothing: a merged query for no metrics and no dimensions raises `UnboundLocalError`, whatever its
conditions are. -/
theorem C78_nothing (write : SubAsk → Res (Q × Warehouse)) (env : PlanEnv) (wheres : List MWhere) (semicolon : Bool) :
    resolveMerged write env false [] [] [] wheres semicolon = .error .unboundLocal := by
  have hmap : ∀ data : List MapData, addMappings [] data [] = ([], []) := by
    intro data
    have h2 : ∀ (d : MapData) (l : List MapTo) (acc : List (String × List DimMap) × List (String × List (String × String))),
        l.foldl (fun acc m => mapToUsed d.key m [] d.fromHash acc) acc = acc := by
      intro d l
      induction l with
      | nil => exact fun _ => rfl
      | cons m l ih => exact fun acc => ih acc
    have h1 : ∀ (data : List MapData) (acc : List (String × List DimMap) × List (String × List (String × String))),
        data.foldl (fun acc d => d.refs.foldl (fun acc m => mapToUsed d.key m [] d.fromHash acc) acc) acc = acc := by
      intro data
      induction data with
      | nil => exact fun _ => rfl
      | cons d data ih =>
        intro acc
        rw [List.foldl_cons, h2]
        exact ih acc
    exact h1 data _
  have hplan : derivePlan env [] [] [] wheres = .ok ⟨[], [], [], []⟩ := by
    have h1 : placeMetrics env [] [] = .ok ([], [], []) := rfl
    have h2 : getFields env [] = .ok [] := rfl
    have h3 : canonDateMapping env [] [] [] [] = .ok ([], [], []) := by with_unfolding_all rfl
    unfold derivePlan
    simp only [h1, h2, h3, hmap]
    rfl
  unfold resolveMerged
  rw [hplan]
  rfl

end
end ML
