import Verif.MergeWhole.PropsConfig
import Verif.MergePlan.Props
import Verif.MergeStmt.Props
/-
C78: the sub-queries of a merged query fit together: what the statement that joins them needs.
-/
set_option autoImplicit false
namespace ML
open Spec

section
variable {Q : Type} {env : PlanEnv} {metrics having dimensions : List String}

theorem counterpart_field {h : String} {f x : PField} (hf : ∃ d, env.getField d = .ok f) (hx : Counterpart env metrics having h f x) :
    ∃ n, env.getField n = .ok x := by
  rcases hx with ⟨_, ⟨_, rfl⟩ | ⟨c, _, _, _, hg⟩⟩ | ⟨_, ⟨_, rfl⟩ | ⟨_, d, _, _, m, _, hg, _⟩⟩
  · exact hf
  · exact ⟨_, hg⟩
  · exact hf
  · exact ⟨_, hg⟩

/-- The counterpart of a canonical date belongs to the date of its sub-query. -/
theorem Spec.FitsTogether.date (hfit : FitsTogether env metrics having dimensions) {d : String} (hd : d ∈ dimensions) {f : PField}
    (hf : env.getField d = .ok f) (hk : MetricDate env metrics having f.key) {h : String} {x : PField} (hx : Counterpart env metrics having h f x) :
    MetricDate env metrics having x.key ∧ DateQuery env x.key h ∧ x.group = f.group ∧ f.group ≠ none := by
  have hg := hfit.grouped d hd f hf hk
  rcases hx with ⟨_, ⟨hq, rfl⟩ | ⟨c, hc, _, hq, hget⟩⟩ | ⟨hn, _⟩
  · exact ⟨hk, hq, rfl, hg⟩
  · obtain ⟨g, hg'⟩ := Option.ne_none_iff_exists'.mp hg
    rw [hg'] at hget
    obtain ⟨e1, e2⟩ := hfit.dates c g x hc hget
    rw [e1]
    exact ⟨hc, hq, by rw [e2, hg'], hg⟩
  · exact absurd hk hn

theorem MDim.keyGroup_id (g : MDim) (h : g.duration = false) : g.keyGroup = g.id := by
  unfold MDim.keyGroup MDim.id MDim.key MDim.short
  cases g.group with
  | none => rfl
  | some x =>
    simp only [h]
    apply String.toList_inj.mp
    simp [String.toList_append, List.append_assoc]

theorem forall₂_at {α β : Type} {R : α → β → Prop} {l : List α} {m : List β} (h : List.Forall₂ R l m) (i : ℕ) (b : β) (hb : m[i]? = some b) :
    ∃ a, l[i]? = some a ∧ R a b := by
  induction h generalizing i with
  | nil => simp at hb
  | cons h1 _ ih =>
    cases i with
    | zero => simp only [List.getElem?_cons_zero, Option.some.injEq] at hb ⊢; subst hb; exact ⟨_, rfl, h1⟩
    | succ i => simp only [List.getElem?_cons_succ] at hb ⊢; exact ih i hb

theorem forall₂_at' {α β : Type} {R : α → β → Prop} {l : List α} {m : List β} (h : List.Forall₂ R l m) (i : ℕ) (a : α) (ha : l[i]? = some a) :
    ∃ b, m[i]? = some b ∧ R a b := by
  induction h generalizing i with
  | nil => simp at ha
  | cons h1 _ ih =>
    cases i with
    | zero => simp only [List.getElem?_cons_zero, Option.some.injEq] at ha ⊢; subst ha; exact ⟨_, rfl, h1⟩
    | succ i => simp only [List.getElem?_cons_succ] at ha ⊢; exact ih i ha

/-- The facts about the definition that the next theorems share. (for the proofs; it models no file in /repo) -/
structure DefFacts (env : PlanEnv) (metrics having dimensions : List String) (dim : PField → MDim) (column : PField → String) (d : MergedDef)
    (name : String → String) : Prop where
  query : ∀ c, MetricDate env metrics having c → ∃ s, DateQuery env c s
  other : ∀ c, ∃ c', MetricDate env metrics having c' ∧ c ≠ c'
  inj : ∀ a b, SubQuery env metrics having a → SubQuery env metrics having b → name a = name b → a = b
  hashes : ∀ n, n ∈ d.src.hashes ↔ ∃ k, SubQuery env metrics having k ∧ n = name k
  nodup : d.src.hashes.Nodup
  dims : ∀ p ∈ d.src.dims, ∃ (k : String) (l : List PField), SubQuery env metrics having k ∧ p = (name k, l.map dim) ∧
    List.Forall₂ (fun d x => ∃ f, env.getField d = .ok f ∧ Counterpart env metrics having k f x) dimensions l
  dimsAll : dimensions ≠ [] → ∀ k, SubQuery env metrics having k → ∃ l, (name k, l) ∈ d.src.dims
  dimKeys : (d.src.dims.map (·.1)).Nodup
  cols : ∀ p ∈ d.metrics, ∃ (k : String) (l : List PField), SubQuery env metrics having k ∧ p = (name k, l.map column) ∧
    ∀ f ∈ l, Needed env metrics having f ∧ BelongsTo env f k
  metricKeys : (d.metrics.map (·.1)).Nodup
  lookup : ∀ k n fld, ⟨n, fld⟩ ∈ d.src.mapping k ↔ ∃ s, n = name s ∧ ((MetricDate env metrics having k ∧ MetricDate env metrics having fld ∧ fld ≠ k ∧ DateQuery env fld s) ∨
    ∃ dd ∈ env.mappings, dd.key = k ∧ ∃ m ∈ dd.refs, m.field = fld ∧ SubQuery env metrics having s ∧ BuiltFrom s m.toHash)

theorem def_facts_plan (write : SubAsk → Res (Q × Warehouse)) (wheres : List MWhere) (semicolon : Bool) (c : MergedConfig Q)
    (h : resolveMerged write env false metrics having dimensions wheres semicolon = .ok c)
    (hp : PlainQuery env metrics having dimensions) (two : TwoDates env metrics having) (ht : TidyQuery env metrics having dimensions)
    (hdiff : DimensionsDiffer env metrics having dimensions) (dim : PField → MDim) (column : PField → String)
    (merged : List SMetric) (hav : List FObj) (fieldOf : ℕ → String) (limit : Option ℕ) :
    ∃ plan, derivePlan env metrics having dimensions wheres = .ok plan ∧ mergedConfig write plan semicolon = .ok c ∧
      DefFacts env metrics having dimensions dim column (c.toDef dim column merged hav fieldOf limit) (shown (joinHashes plan)) := by
  unfold resolveMerged at h
  rw [if_neg (by decide)] at h
  cases hd : derivePlan env metrics having dimensions wheres with
  | error e => rw [hd] at h; cases h
  | ok plan =>
    rw [hd] at h
    simp only at h
    obtain ⟨k1, k2, k3⟩ := plan_keys env metrics having dimensions wheres plan hd hp
    have hn := joinHashes_nodup plan k1
    obtain ⟨p1, p2, _, p4⟩ := C78_places env metrics having dimensions wheres plan hd hp two ht hdiff
    have hsub : ∀ k, k ∈ joinHashes plan ↔ SubQuery env metrics having k := by
      intro k
      rw [joinHashes_mem, p1, p2]
      constructor
      · rintro (h | ⟨_, h⟩) <;> exact h
      · exact .inl
    obtain ⟨c1, c2, c3, c4, c5, _⟩ := mergedConfig_spec write plan semicolon c k1 k2 h
    have hinj : ∀ a b, SubQuery env metrics having a → SubQuery env metrics having b → shown (joinHashes plan) a = shown (joinHashes plan) b → a = b :=
      fun a b ha hb e => shown_inj _ hn a b ((hsub a).mpr ha) ((hsub b).mpr hb) e
    have hkeys : ∀ {V : Type} (l : List (String × V)), (l.map (·.1)).Nodup → (∀ k ∈ l.map (·.1), SubQuery env metrics having k) →
        ((l.map (fun p => shown (joinHashes plan) p.1))).Nodup := by
      intro V l hl hk
      have := (List.nodup_map_iff_inj_on hl).mpr (fun a ha b hb e => hinj a b (hk a ha) (hk b hb) e)
      rwa [List.map_map] at this
    obtain ⟨_, _, cb3⟩ := C36_partial env metrics having dimensions wheres plan hd hp (.inl two)
    have ca := (C36_partial env metrics having dimensions wheres plan hd hp (.inl two)).1
    obtain ⟨D, hD, hlk⟩ := C35_lookup env metrics having dimensions wheres plan hd hp
    have hDm : ∀ c, D c ↔ MetricDate env metrics having c := by
      intro c
      refine ⟨fun hc => ?_, hD.metric c⟩
      rcases hD.only c hc with h | ⟨d, hd, f, hf, e, hno⟩
      · exact h
      · rcases ht.near d hd f c hf e with h | ⟨m, m1, m2⟩
        · exact h
        · exact absurd m2 (hno m m1)
    obtain ⟨mg, sec, q, dimFields, dm0, dm, hashes, used, st⟩ := derivePlan_steps env metrics having dimensions wheres plan hd
    refine ⟨plan, rfl, h, ⟨fun c hc => st.hasQuery hp two c hc, fun c => st.otherDate hp two c, hinj, ?_, ?_, ?_, ?_, ?_, ?_, ?_, ?_⟩⟩
    · intro n
      simp only [MergedConfig.toDef]
      rw [c5.mem_iff, List.mem_map]
      constructor
      · rintro ⟨k, hk, rfl⟩; exact ⟨k, (hsub k).mp hk, rfl⟩
      · rintro ⟨k, hk, rfl⟩; exact ⟨k, (hsub k).mpr hk, rfl⟩
    · simp only [MergedConfig.toDef]
      exact c5.nodup_iff.mpr ((List.nodup_map_iff_inj_on hn).mpr (fun a ha b hb e => shown_inj _ hn a b ha hb e))
    · intro p hp'
      simp only [MergedConfig.toDef] at hp'
      rw [c2, List.map_map] at hp'
      obtain ⟨⟨k, l⟩, hkl, rfl⟩ := List.mem_map.mp hp'
      exact ⟨k, l, ((p2 k).mp (List.mem_map.mpr ⟨_, hkl, rfl⟩)).2, rfl, p4 k l hkl⟩
    · intro hne k hk
      obtain ⟨⟨k', l⟩, hkl, e⟩ := List.mem_map.mp ((p2 k).mpr ⟨hne, hk⟩)
      simp only at e
      subst e
      refine ⟨l.map dim, ?_⟩
      simp only [MergedConfig.toDef]
      rw [c2, List.map_map]
      exact List.mem_map.mpr ⟨_, hkl, rfl⟩
    · simp only [MergedConfig.toDef]
      rw [c2, List.map_map, List.map_map]
      exact hkeys plan.dims k2 (fun k hk => ((p2 k).mp hk).2)
    · intro p hp'
      simp only [MergedConfig.toDef] at hp'
      rw [c1, List.map_map] at hp'
      obtain ⟨⟨k, l⟩, hkl, rfl⟩ := List.mem_map.mp hp'
      refine ⟨k, l, (p1 k).mp (List.mem_map.mpr ⟨_, hkl, rfl⟩), rfl, fun f hf => ?_⟩
      have hneed := (cb3 k l hkl).2 f hf
      obtain ⟨k', hb, hu⟩ := ca f hneed
      have := (hu k).mp ⟨l, hkl, f, hf, rfl⟩
      subst this
      exact ⟨hneed, hb⟩
    · simp only [MergedConfig.toDef]
      rw [c1, List.map_map, List.map_map]
      exact hkeys plan.metrics k1 (fun k hk => (p1 k).mp hk)
    · intro k n fld
      simp only [MergedConfig.toDef]
      rw [c4]
      have e1 : dictGet (plan.lookup.map (fun p => (p.1, p.2.map (fun x => (⟨shown (joinHashes plan) x.2, x.1⟩ : MapRef))))) k =
          (dictGet plan.lookup k).map (List.map (fun x => (⟨shown (joinHashes plan) x.2, x.1⟩ : MapRef))) :=
        dictGet_mapValues (List.map (fun x => (⟨shown (joinHashes plan) x.2, x.1⟩ : MapRef))) plan.lookup k
      have e2 : (⟨n, fld⟩ : MapRef) ∈ ((dictGet (plan.lookup.map (fun p => (p.1, p.2.map (fun x => (⟨shown (joinHashes plan) x.2, x.1⟩ : MapRef))))) k)).getD [] ↔
          ∃ s, (fld, s) ∈ (dictGet plan.lookup k).getD [] ∧ n = shown (joinHashes plan) s := by
        rw [e1]
        cases dictGet plan.lookup k with
        | none => simp
        | some l =>
          simp only [Option.map_some, Option.getD_some, List.mem_map, MapRef.mk.injEq]
          constructor
          · rintro ⟨⟨a, s⟩, hm, e, rfl⟩; exact ⟨s, hm, e.symm⟩
          · rintro ⟨s, hm, rfl⟩; exact ⟨(fld, s), hm, rfl, rfl⟩
      rw [e2]
      constructor
      · rintro ⟨s, hm, rfl⟩
        refine ⟨s, rfl, ?_⟩
        rcases (hlk k fld s).mp hm with ⟨a, b, e, hq⟩ | ⟨dd, hdd, e, m, hm, em, ⟨c, _, hc, _, _, hq⟩, hcon⟩
        · exact .inl ⟨(hDm k).mp a, (hDm fld).mp b, e, hq⟩
        · have hs : SubQuery env metrics having s := ⟨c, (hDm c).mp hc, hq⟩
          exact .inr ⟨dd, hdd, e, m, hm, em, hs, ((ht.nice hs).built _).mpr hcon⟩
      · rintro ⟨s, rfl, hcase⟩
        refine ⟨s, (hlk k fld s).mpr ?_, rfl⟩
        rcases hcase with ⟨a, b, e, hq⟩ | ⟨dd, hdd, e, m, hm, em, hs, hb⟩
        · exact .inl ⟨(hDm k).mpr a, (hDm fld).mpr b, e, hq⟩
        · obtain ⟨c, hc, hq⟩ := id hs
          obtain ⟨c', hc', hne⟩ := st.otherDate hp two c
          exact .inr ⟨dd, hdd, e, m, hm, em, ⟨c, c', (hDm c).mpr hc, (hDm c').mpr hc', hne, hq⟩, ((ht.nice hs).built _).mp hb⟩

theorem def_facts (write : SubAsk → Res (Q × Warehouse)) (wheres : List MWhere) (semicolon : Bool) (c : MergedConfig Q)
    (h : resolveMerged write env false metrics having dimensions wheres semicolon = .ok c)
    (hp : PlainQuery env metrics having dimensions) (two : TwoDates env metrics having) (ht : TidyQuery env metrics having dimensions)
    (hdiff : DimensionsDiffer env metrics having dimensions) (dim : PField → MDim) (column : PField → String)
    (merged : List SMetric) (hav : List FObj) (fieldOf : ℕ → String) (limit : Option ℕ) :
    ∃ name, DefFacts env metrics having dimensions dim column (c.toDef dim column merged hav fieldOf limit) name :=
  let ⟨_, _, _, D⟩ := def_facts_plan write wheres semicolon c h hp two ht hdiff dim column merged hav fieldOf limit
  ⟨_, D⟩

variable {dim : PField → MDim} {column : PField → String} {d : MergedDef} {name : String → String}

theorem DefFacts.dimsOf (D : DefFacts env metrics having dimensions dim column d name) {k : String} (hk : SubQuery env metrics having k) :
    ∃ l : List PField, ML.Spec.dimsOf d.src (name k) = l.map dim ∧
      (dimensions ≠ [] → dictGet d.src.dims (name k) = some (l.map dim)) ∧
      List.Forall₂ (fun d x => ∃ f, env.getField d = .ok f ∧ Counterpart env metrics having k f x) dimensions l := by
  cases hg : dictGet d.src.dims (name k) with
  | some v =>
    obtain ⟨k', l, hk', e, hl⟩ := D.dims _ (dictGet_mem hg)
    simp only [Prod.mk.injEq] at e
    have := D.inj k k' hk hk' e.1
    subst this
    exact ⟨l, by unfold ML.Spec.dimsOf; rw [hg, e.2]; rfl, fun _ => by rw [e.2], hl⟩
  | none =>
    by_cases hne : dimensions = []
    · subst hne
      exact ⟨[], by unfold ML.Spec.dimsOf; rw [hg]; rfl, fun h => absurd rfl h, .nil⟩
    · obtain ⟨l, hl⟩ := D.dimsAll hne k hk
      rw [dictGet_of_mem D.dimKeys hl] at hg
      cases hg

theorem DefFacts.at (D : DefFacts env metrics having dimensions dim column d name) {p : String × List MDim} (hp : p ∈ d.src.dims) {j : ℕ} {g : MDim}
    (hg : p.2[j]? = some g) : ∃ k x dd f, SubQuery env metrics having k ∧ p.1 = name k ∧ g = dim x ∧ dimensions[j]? = some dd ∧
      env.getField dd = .ok f ∧ Counterpart env metrics having k f x := by
  obtain ⟨k, l, hk, rfl, hl⟩ := D.dims p hp
  simp only [List.getElem?_map, Option.map_eq_some_iff] at hg
  obtain ⟨x, hx, rfl⟩ := hg
  obtain ⟨dd, hd, f, hf, hc⟩ := forall₂_at hl j x hx
  exact ⟨k, x, dd, f, hk, rfl, rfl, hd, hf, hc⟩

theorem Spec.Counterpart.same {h : String} {f x y : PField} (ht : TidyQuery env metrics having dimensions) {dd : String} (hd : dd ∈ dimensions)
    (hf : env.getField dd = .ok f) (hh : SubQuery env metrics having h) (hk : ¬ MetricDate env metrics having f.key)
    (hx : Counterpart env metrics having h f x) (hy : Counterpart env metrics having h f y) : x = y := by
  rcases hx with ⟨h1, _⟩ | ⟨_, ⟨a, rfl⟩ | ⟨a, mx⟩⟩
  · exact absurd h1 hk
  · rcases hy with ⟨h1, _⟩ | ⟨_, ⟨_, rfl⟩ | ⟨b, _⟩⟩
    · exact absurd h1 hk
    · rfl
    · exact absurd a b
  · rcases hy with ⟨h1, _⟩ | ⟨_, ⟨b, _⟩ | ⟨_, my⟩⟩
    · exact absurd h1 hk
    · exact absurd b a
    · obtain ⟨z, hz⟩ := (ht.others dd hd f hf hk).2 h hh a
      rw [(hz x).mp mx, (hz y).mp my]

theorem Spec.JoinedEverywhere.counterpart {h : String} {f x : PField} (hj : JoinedEverywhere env metrics having f)
    (hh : SubQuery env metrics having h) (hk : ¬ MetricDate env metrics having f.key) (hx : Counterpart env metrics having h f x) : x = f := by
  rcases hx with ⟨h1, _⟩ | ⟨_, ⟨_, e⟩ | ⟨b, _⟩⟩
  · exact absurd h1 hk
  · exact e
  · exact absurd (hj.joins h hh) b

theorem pairwise_get {α : Type} {R : α → α → Prop} {l : List α} (h : l.Pairwise R) {i j : ℕ} {a b : α} (hij : i < j) (ha : l[i]? = some a)
    (hb : l[j]? = some b) : R a b := by
  obtain ⟨hi, rfl⟩ := List.getElem?_eq_some_iff.mp ha
  obtain ⟨hj, rfl⟩ := List.getElem?_eq_some_iff.mp hb
  exact List.pairwise_iff_getElem.mp h i j hi hj hij

/-- A field occurs in a sub-query at one place only. -/
theorem Spec.DimensionsDiffer.place (hdiff : DimensionsDiffer env metrics having dimensions) {h : String} (hh : SubQuery env metrics having h)
    {i j : ℕ} {a b : String} {f g x y : PField} (ha : dimensions[i]? = some a) (hb : dimensions[j]? = some b) (hf : env.getField a = .ok f)
    (hg : env.getField b = .ok g) (hx : Counterpart env metrics having h f x) (hy : Counterpart env metrics having h g y) (e : x = y) : i = j := by
  rcases Nat.lt_trichotomy i j with hlt | he | hgt
  · exact absurd (congrArg PField.id e) (pairwise_get (hdiff h hh) hlt ha hb f g x y hf hg hx hy)
  · exact he
  · exact absurd (congrArg PField.id e.symm) (pairwise_get (hdiff h hh) hgt hb ha g f y x hg hf hy hx)

theorem Spec.ColumnsApart.key (hcol : ColumnsApart env metrics having dimensions dim column) {h : String} {x : PField}
    (hh : SubQuery env metrics having h) (hx : DimensionOf env metrics having dimensions h x) : (dim x).key = x.key := by
  obtain ⟨a, b, _⟩ := hcol.reads h x hh hx
  unfold MDim.key PField.key
  rw [a, b]

theorem DefFacts.matches (D : DefFacts env metrics having dimensions dim column d name) (hp : PlainQuery env metrics having dimensions)
    (ht : TidyQuery env metrics having dimensions) (hdiff : DimensionsDiffer env metrics having dimensions)
    (hfit : FitsTogether env metrics having dimensions) (hcol : ColumnsApart env metrics having dimensions dim column) : DimensionsMatch d.src := by
  have hget : ∀ {p : String × List MDim}, p ∈ d.src.dims → ∀ {g}, g ∈ p.2 → ∃ (k : String) (x : PField) (j : ℕ) (dd : String) (f : PField), SubQuery env metrics having k ∧ p.1 = name k ∧ g = dim x ∧
      dimensions[j]? = some dd ∧ env.getField dd = .ok f ∧ Counterpart env metrics having k f x ∧ DimensionOf env metrics having dimensions k x := by
    intro p hp' g hg
    obtain ⟨j, hj⟩ := List.getElem?_of_mem hg
    obtain ⟨k, x, dd, f, h1, h2, h3, h4, h5, h6⟩ := D.at hp' hj
    exact ⟨k, x, j, dd, f, h1, h2, h3, h4, h5, h6, dd, List.mem_of_getElem? h4, f, h5, h6⟩
  have hfield : ∀ {k x}, DimensionOf env metrics having dimensions k x → ∃ n, env.getField n = .ok x := by
    rintro k x ⟨dd, _, f, hf, hc⟩
    exact counterpart_field ⟨dd, hf⟩ hc
  -- equal names are equal fields
  have hid : ∀ {k k' x y}, SubQuery env metrics having k → SubQuery env metrics having k' → DimensionOf env metrics having dimensions k x →
      DimensionOf env metrics having dimensions k' y → ((dim y).keyGroup = (dim x).id ↔ dim y = dim x) ∧ ((dim y).keyGroup = (dim x).id → y = x) := by
    intro k k' x y hk hk' hx hy
    obtain ⟨_, _, _, d1, i1⟩ := hcol.reads k x hk hx
    obtain ⟨_, _, _, d2, i2⟩ := hcol.reads k' y hk' hy
    obtain ⟨n, hn⟩ := hfield hx
    obtain ⟨m, hm⟩ := hfield hy
    have key : (dim y).keyGroup = (dim x).id → y = x := by
      intro e
      rw [MDim.keyGroup_id _ d2, i2, i1] at e
      exact hp.names m n y x hm hn e
    refine ⟨⟨fun e => by rw [key e], fun e => by rw [e, MDim.keyGroup_id _ d1]⟩, key⟩
  refine ⟨?_, D.dimKeys, ?_, ?_⟩
  · intro p hp'
    obtain ⟨k, l, hk, rfl, _⟩ := D.dims p hp'
    exact (D.hashes _).mpr ⟨k, hk, rfl⟩
  · intro h hh i f0 hf0
    obtain ⟨k, hk, rfl⟩ := (D.hashes h).mp hh
    obtain ⟨l, hl, _, hall⟩ := D.dimsOf hk
    rw [hl, List.getElem?_map, Option.map_eq_some_iff] at hf0
    obtain ⟨x, hx, rfl⟩ := hf0
    obtain ⟨dd, hdd, f, hf, hc⟩ := forall₂_at hall i x hx
    have hmem := List.mem_of_getElem? hdd
    have hdx : DimensionOf env metrics having dimensions k x := ⟨dd, hmem, f, hf, hc⟩
    have hkey := hcol.key hk hdx
    -- the field at the same place of another sub-query
    have hplace : ∀ s, SubQuery env metrics having s → ∃ y, (ML.Spec.dimsOf d.src (name s))[i]? = some (dim y) ∧ Counterpart env metrics having s f y := by
      intro s hs
      obtain ⟨l', hl', _, hall'⟩ := D.dimsOf hs
      obtain ⟨y, hy, f', hf', hc'⟩ := forall₂_at' hall' i dd hdd
      rw [hf] at hf'
      injection hf' with hf'
      subst hf'
      exact ⟨y, by rw [hl', List.getElem?_map, hy]; rfl, hc'⟩
    by_cases hdate : MetricDate env metrics having f.key
    · right
      obtain ⟨q1, q2, q3, q4⟩ := hfit.date hmem hf hdate hc
      refine ⟨?_, ?_, ?_, ?_, ?_⟩
      · intro p hp' g hg e
        obtain ⟨k', y, j, d1, f1, hk', e1, rfl, hd1, hf1, hc1, hdy⟩ := hget hp' hg
        have := hcol.dims k' k y x hk' hk hdy hdx e
        subst this
        have hmem1 := List.mem_of_getElem? hd1
        have : k' = k := by
          by_cases h1 : MetricDate env metrics having f1.key
          · exact (hfit.date hmem1 hf1 h1 hc1).2.1.unique q2
          · rcases hfit.others d1 hmem1 f1 hf1 h1 with hj | hm
            · rw [hj.counterpart hk' h1 hc1] at q1
              exact absurd q1 h1
            · exact absurd q1 (hm.plain k' _ hk' hc1).1
        exact ⟨by rw [e1, this], rfl⟩
      · intro p hp' g hg
        obtain ⟨k', y, j, d1, f1, hk', e1, rfl, hd1, hf1, hc1, hdy⟩ := hget hp' hg
        exact (hid hk hk' hdx hdy).1
      · rw [hkey]
        obtain ⟨c', hc', hne⟩ := D.other x.key
        obtain ⟨s, hs⟩ := D.query c' hc'
        exact List.ne_nil_of_mem ((D.lookup x.key (name s) c').mpr ⟨s, rfl, .inl ⟨q1, hc', fun e => hne e.symm, hs⟩⟩)
      · intro h' hh' hne
        obtain ⟨s, hs, rfl⟩ := (D.hashes h').mp hh'
        obtain ⟨c', hc', hq⟩ := id hs
        rw [hkey]
        refine ⟨⟨name s, c'⟩, (D.lookup x.key (name s) c').mpr ⟨s, rfl, .inl ⟨q1, hc', ?_, hq⟩⟩, rfl⟩
        rintro rfl
        exact hne (by rw [hq.unique q2])
      · rintro ⟨n, fld⟩ hm
        rw [hkey] at hm
        obtain ⟨s, rfl, hcase⟩ := (D.lookup x.key n fld).mp hm
        rcases hcase with ⟨_, hfd, hne, hq⟩ | ⟨m, hmm, e, _⟩
        · have hs : SubQuery env metrics having s := ⟨fld, hfd, hq⟩
          obtain ⟨y, hy, hcy⟩ := hplace s hs
          refine ⟨dim y, hy, (D.hashes _).mpr ⟨s, hs, rfl⟩, ?_, ?_⟩
          · intro e
            have := D.inj s k hs hk e
            subst this
            exact hne (ht.apart _ _ _ hfd q1 hq q2)
          · obtain ⟨r1, r2, r3, _⟩ := hfit.date hmem hf hdate hcy
            have : y.key = fld := ht.apart _ _ _ r1 hfd r2 hq
            have hdy : DimensionOf env metrics having dimensions s y := ⟨dd, hmem, f, hf, hcy⟩
            obtain ⟨_, _, gx, _, _⟩ := hcol.reads k x hk hdx
            obtain ⟨_, _, gy, dy, _⟩ := hcol.reads s y hs hdy
            obtain ⟨g, hg⟩ := Option.ne_none_iff_exists'.mp q4
            rw [gx, q3, hg]
            dsimp only
            rw [← MDim.keyGroup_id _ dy]
            unfold MDim.keyGroup
            rw [gy, r3, hg]
            dsimp only
            rw [hcol.key hs hdy, this]
        · exact absurd (e ▸ q1) (hfit.unmapped m hmm)
    · rcases hfit.others dd hmem f hf hdate with hj | hm
      · left
        have := hj.counterpart hk hdate hc
        subst this
        refine ⟨?_, ?_, ?_⟩
        · intro h' hh'
          obtain ⟨s, hs, rfl⟩ := (D.hashes h').mp hh'
          obtain ⟨y, hy, hcy⟩ := hplace s hs
          rw [hy, hj.counterpart hs hdate hcy]
          rfl
        · intro p hp' j hj'
          obtain ⟨g, hg, e⟩ := Option.map_eq_some_iff.mp hj'
          obtain ⟨k', y, d1, f1, hk', e1, rfl, hd1, hf1, hc1⟩ := D.at hp' hg
          have hdy : DimensionOf env metrics having dimensions k' y := ⟨d1, List.mem_of_getElem? hd1, f1, hf1, hc1⟩
          have := hcol.dims k' k y x hk' hk hdy hdx e
          obtain ⟨z, _, hcz⟩ := hplace k' hk'
          have hz := hj.counterpart hk' hdate hcz
          exact hdiff.place hk' hd1 hdd hf1 hf hc1 hcz (by rw [this, hz])
        · intro p hp' g hg e q hq g' hg' e'
          obtain ⟨k', y, j, d1, f1, hk', e1, rfl, hd1, hf1, hc1, hdy⟩ := hget hp' hg
          have := hcol.dims k' k y x hk' hk hdy hdx e
          subst this
          obtain ⟨k2, z, j2, d2, f2, hk2, _, rfl, hd2, hf2, hc2, hdz⟩ := hget hq hg'
          have hz := (hid hk' hk2 hdy hdz).2 e'
          subst hz
          rw [hkey]
          apply List.eq_nil_iff_forall_not_mem.mpr
          rintro ⟨n, fld⟩ hmem'
          obtain ⟨s, _, ⟨h1, _⟩ | ⟨m, hmm, em, r, hr, _, hs, hb⟩⟩ := (D.lookup z.key n fld).mp hmem'
          · exact hdate h1
          · exact hj.unmapped m hmm em r hr s hs hb
      · right
        obtain ⟨pl1, pl2⟩ := hm.plain k x hk hc
        refine ⟨?_, ?_, ?_, ?_, ?_⟩
        · intro p hp' g hg e
          obtain ⟨k', y, j, d1, f1, hk', e1, rfl, hd1, hf1, hc1, hdy⟩ := hget hp' hg
          have := hcol.dims k' k y x hk' hk hdy hdx e
          subst this
          have hmem1 := List.mem_of_getElem? hd1
          have : k' = k := by
            by_contra hne
            obtain ⟨m, hmm, em, r, hr, hb⟩ := hm.all k k' y hk hk' (fun e => hne e.symm) hc
            by_cases h1 : MetricDate env metrics having f1.key
            · exact pl1 (hfit.date hmem1 hf1 h1 hc1).1
            · rcases hfit.others d1 hmem1 f1 hf1 h1 with hj | hm1
              · have := hj.counterpart hk' h1 hc1
                subst this
                exact hj.unmapped m hmm em r hr k' hk' hb
              · exact (hm1.only k' y hk' hc1 m hmm em r hr k' hk' hb).1 rfl
          exact ⟨by rw [e1, this], rfl⟩
        · intro p hp' g hg
          obtain ⟨k', y, j, d1, f1, hk', e1, rfl, hd1, hf1, hc1, hdy⟩ := hget hp' hg
          exact (hid hk hk' hdx hdy).1
        · rw [hkey]
          obtain ⟨c, hcd, hcq⟩ := id hk
          obtain ⟨c', hc', hne⟩ := D.other c
          obtain ⟨s, hs⟩ := D.query c' hc'
          have hss : SubQuery env metrics having s := ⟨c', hc', hs⟩
          have hks : k ≠ s := by
            rintro rfl
            exact hne (ht.apart _ _ _ hcd hc' hcq hs)
          obtain ⟨m, hmm, em, r, hr, hb⟩ := hm.all k s x hk hss hks hc
          exact List.ne_nil_of_mem ((D.lookup x.key (name s) r.field).mpr ⟨s, rfl, .inr ⟨m, hmm, em, r, hr, rfl, hss, hb⟩⟩)
        · intro h' hh' hne
          obtain ⟨s, hs, rfl⟩ := (D.hashes h').mp hh'
          rw [hkey]
          obtain ⟨m, hmm, em, r, hr, hb⟩ := hm.all k s x hk hs (fun e => hne (by rw [e])) hc
          exact ⟨⟨name s, r.field⟩, (D.lookup x.key (name s) r.field).mpr ⟨s, rfl, .inr ⟨m, hmm, em, r, hr, rfl, hs, hb⟩⟩, rfl⟩
        · rintro ⟨n, fld⟩ hmm
          rw [hkey] at hmm
          obtain ⟨s, rfl, ⟨h1, _⟩ | ⟨m, hm1, em, r, hr, rfl, hs, hb⟩⟩ := (D.lookup x.key n fld).mp hmm
          · exact absurd h1 pl1
          · obtain ⟨hne, x', hx', ex⟩ := hm.only k x hk hc m hm1 em r hr s hs hb
            obtain ⟨y, hy, hcy⟩ := hplace s hs
            refine ⟨dim y, hy, (D.hashes _).mpr ⟨s, hs, rfl⟩, fun e => hne (D.inj s k hs hk e), ?_⟩
            have hdy : DimensionOf env metrics having dimensions s y := ⟨dd, hmem, f, hf, hcy⟩
            rw [(hcol.reads k x hk hdx).2.2.1, pl2, (hcol.reads s y hs hdy).2.2.2.2, hcy.same ht hmem hf hs hdate hx']
            exact ex
  · intro p hp' g hg
    obtain ⟨k', y, j, d1, f1, hk', e1, rfl, hd1, hf1, hc1, hdy⟩ := hget hp' hg
    exact hcol.noDots k' y hk' hdy

theorem DefFacts.apart (D : DefFacts env metrics having dimensions dim column d name)
    (hcol : ColumnsApart env metrics having dimensions dim column) : MetricsApart d := by
  refine ⟨?_, D.metricKeys, ?_, ?_⟩
  · intro p hp'
    obtain ⟨k, l, hk, rfl, _⟩ := D.cols p hp'
    exact (D.hashes _).mpr ⟨k, hk, rfl⟩
  · intro p hp' q hq c hc hc'
    obtain ⟨k, l, hk, rfl, hl⟩ := D.cols p hp'
    obtain ⟨k', l', hk', rfl, hl'⟩ := D.cols q hq
    obtain ⟨f, hf, rfl⟩ := List.mem_map.mp hc
    obtain ⟨g, hg, e⟩ := List.mem_map.mp hc'
    obtain ⟨n1, c1, j1, a1, a2, rfl⟩ := hl f hf
    obtain ⟨n2, c2, j2, b1, b2, rfl⟩ := hl' g hg
    have := hcol.columns g f n2 n1 e
    subst this
    rw [a1] at b1
    injection b1 with b1
    subst b1
    rw [a2] at b2
    injection b2 with b2
    subst b2
    have h1 := dictGet_of_mem D.metricKeys hp'
    rw [dictGet_of_mem D.metricKeys hq] at h1
    injection h1 with h1
    rw [h1]
  · intro p hp' c hc q hq f hf
    obtain ⟨k, l, hk, rfl, hl⟩ := D.cols p hp'
    obtain ⟨g, hg, rfl⟩ := List.mem_map.mp hc
    obtain ⟨j, hj⟩ := List.getElem?_of_mem hf
    obtain ⟨k', x, dd, f1, h1, h2, rfl, h4, h5, h6⟩ := D.at hq hj
    exact hcol.apart k' x g h1 ⟨dd, List.mem_of_getElem? h4, f1, h5, h6⟩ (hl g hg).1

end
end ML
