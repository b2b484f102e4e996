import Verif.Choose.Spec
import Verif.Design.Props
/-
C40: one joined query or a merge of several. C48: which model a query uses.
-/
set_option autoImplicit false
namespace ML
open Spec

/-! ### Helper lemmas -/

theorem mem_metricRefDates {refs : List (Option RefInfo)} {d : Option String} :
    d ∈ metricRefDates refs ↔ ∃ a, some a ∈ refs ∧ a.isMeasure = true ∧ a.isCumulative = false ∧
      a.canonDate = d := by
  unfold metricRefDates
  rw [List.mem_filterMap]
  constructor
  · rintro ⟨r, hr, h⟩
    cases r with
    | none => cases h
    | some a =>
      simp only at h
      split at h
      · rename_i hc
        simp only [Bool.and_eq_true, Bool.not_eq_true'] at hc
        exact ⟨a, hr, hc.1, hc.2, Option.some.inj h⟩
      · cases h
  · rintro ⟨a, ha, h1, h2, h3⟩
    exact ⟨some a, ha, by simp [h1, h2, h3]⟩

theorem two_of_length {α : Type} [DecidableEq α] {l : List α} :
    l.dedup.length > 1 ↔ ∃ a ∈ l, ∃ b ∈ l, a ≠ b := by
  constructor
  · intro h
    have hn := List.nodup_dedup l
    match hd : l.dedup with
    | [] => rw [hd] at h; simp at h
    | [_] => rw [hd] at h; simp at h
    | a :: b :: r =>
      rw [hd] at hn
      refine ⟨a, List.mem_dedup.mp (by rw [hd]; simp), b, List.mem_dedup.mp (by rw [hd]; simp), ?_⟩
      simp only [List.nodup_cons, List.mem_cons, not_or] at hn
      exact hn.1.1
  · rintro ⟨a, ha, b, hb, hab⟩
    match hd : l.dedup with
    | [] => rw [← List.mem_dedup, hd] at ha; cases ha
    | [c] =>
      rw [← List.mem_dedup, hd, List.mem_singleton] at ha hb
      exact absurd (ha.trans hb.symm) hab
    | _ :: _ :: _ => simp

theorem merged_iff (m : MetricInfo) : m.merged = true ↔ IsMerged m := by
  obtain ⟨d, n, refs⟩ := m
  unfold MetricInfo.merged IsMerged
  cases d with
  | some b => simp
  | none =>
    cases n with
    | false => simp
    | true =>
      simp only [if_true, decide_eq_true_eq, two_of_length, mem_metricRefDates, reduceCtorEq, false_or,
        true_and]
      constructor
      · rintro ⟨_, ⟨a, h1, h2, h3, rfl⟩, _, ⟨b, h4, h5, h6, rfl⟩, h⟩
        exact ⟨a, b, h1, h4, h2, h5, h3, h6, h⟩
      · rintro ⟨a, b, h1, h4, h2, h5, h3, h6, h⟩
        exact ⟨_, ⟨a, h1, h2, h3, rfl⟩, _, ⟨b, h4, h5, h6, rfl⟩, h⟩

theorem anyMerged_ok {lookup : String → Res MetricInfo} :
    ∀ {ms : List String} {b : Bool}, anyMerged lookup ms = .ok b →
      (b = true ↔ ∃ m ∈ ms, ∃ i, lookup m = .ok i ∧ IsMerged i)
  | [], b, h => by
    simp only [anyMerged, Except.ok.injEq] at h
    simp [← h]
  | m :: ms, b, h => by
    unfold anyMerged at h
    cases hl : lookup m with
    | error e => rw [hl] at h; cases h
    | ok i =>
      rw [hl] at h
      simp only at h
      by_cases hm : i.merged = true
      · rw [if_pos hm] at h
        simp only [Except.ok.injEq] at h
        subst h
        simp only [true_iff]
        exact ⟨m, by simp, i, hl, (merged_iff i).mp hm⟩
      · rw [if_neg hm] at h
        rw [anyMerged_ok h]
        constructor
        · rintro ⟨x, hx, hh⟩
          exact ⟨x, by simp [hx], hh⟩
        · rintro ⟨x, hx, j, hj, hh⟩
          rcases List.mem_cons.mp hx with rfl | hx
          · rw [hl] at hj
            cases hj
            exact absurd ((merged_iff _).mpr hh) hm
          · exact ⟨x, hx, j, hj, hh⟩

theorem anyMerged_total {lookup : String → Res MetricInfo} :
    ∀ {ms : List String}, (∀ m ∈ ms, ∃ i, lookup m = .ok i) → ∃ b, anyMerged lookup ms = .ok b
  | [], _ => ⟨_, rfl⟩
  | m :: ms, h => by
    obtain ⟨i, hi⟩ := h m (by simp)
    obtain ⟨b, hb⟩ := anyMerged_total (fun x hx => h x (List.mem_cons_of_mem _ hx)) (ms := ms)
    unfold anyMerged
    rw [hi]
    simp only
    split
    · exact ⟨_, rfl⟩
    · exact ⟨b, hb⟩

theorem isMerged_total {lookup : String → Res MetricInfo} {k : KindArgs}
    (h : ∀ m ∈ k.metrics, ∃ i, lookup m = .ok i) :
    ∃ b, isMergedResult lookup k = .ok b ∧ (b = true ↔ MustMerge lookup k) := by
  obtain ⟨b, hb⟩ := anyMerged_total h
  refine ⟨_, by unfold isMergedResult; rw [hb], ?_⟩
  rw [Bool.or_eq_true, Bool.or_eq_true, anyMerged_ok hb]
  unfold MustMerge
  exact or_assoc

/-! ### C40 -/

/-- C40 (a): a query that need not be merged is answered by its single joined query whenever that
works. -/
theorem C40_single {α : Type} (lookup : String → Res MetricInfo) (k : KindArgs)
    (hl : ∀ m ∈ k.metrics, ∃ i, lookup m = .ok i) (hm : ¬ MustMerge lookup k)
    (q : α) (merged : Res α) :
    chooseQuery lookup k (.ok q) merged = .ok (.single, q) := by
  obtain ⟨b, hb, hiff⟩ := isMerged_total hl
  have : b = false := by cases b <;> simp_all
  subst this
  unfold chooseQuery
  rw [hb]

/-- C40 (b): a query that must be merged is the merged query, whatever the single one would be. -/
theorem C40_merged {α : Type} (lookup : String → Res MetricInfo) (k : KindArgs)
    (hl : ∀ m ∈ k.metrics, ∃ i, lookup m = .ok i) (hm : MustMerge lookup k)
    (single merged : Res α) :
    chooseQuery lookup k single merged = merged.map (fun q => (.merged, q)) := by
  obtain ⟨b, hb, hiff⟩ := isMerged_total hl
  have : b = true := hiff.mpr hm
  subst this
  unfold chooseQuery
  rw [hb]

/-- C40 (c): an error other than the missing join path is reported as it is; it never turns into a
merge. -/
theorem C40_not_masked {α : Type} (lookup : String → Res MetricInfo) (k : KindArgs)
    (hl : ∀ m ∈ k.metrics, ∃ i, lookup m = .ok i) (hm : ¬ MustMerge lookup k)
    (e : Err) (he : e ≠ .join) (merged : Res α) :
    chooseQuery lookup k (.error e) merged = .error e := by
  obtain ⟨b, hb, hiff⟩ := isMerged_total hl
  have : b = false := by cases b <;> simp_all
  subst this
  unfold chooseQuery
  rw [hb]
  cases e <;> first | rfl | exact absurd rfl he

/-- C40 (d): with `single_query` the missing join path is reported, without it the query is merged. -/
theorem C40_fallback {α : Type} (lookup : String → Res MetricInfo) (k : KindArgs)
    (hl : ∀ m ∈ k.metrics, ∃ i, lookup m = .ok i) (hm : ¬ MustMerge lookup k) (merged : Res α) :
    (k.singleQuery = true → chooseQuery lookup k (.error .join) merged = .error .join) ∧
    (k.singleQuery = false →
      chooseQuery lookup k (.error .join) merged = merged.map (fun q => (.merged, q))) := by
  obtain ⟨b, hb, hiff⟩ := isMerged_total hl
  have : b = false := by cases b <;> simp_all
  subst this
  unfold chooseQuery
  rw [hb]
  constructor <;> intro h <;> simp [h]

/-- C40 (e): put together with the designer of joins. If parsing the input and writing the SQL do
not themselves raise the error that is kept for missing join paths, a query over views that are
connected among themselves (one of them reaches the others through required views) or over two
views of which one reaches the other is never merged unless it must be. What is missing for the
full statement: for other sets of views the designer may give up although a view reaches all of
them, see `C40_falls_back_though_connected`. -/
theorem C40_connected_partial {α : Type} (lookup : String → Res MetricInfo) (k : KindArgs)
    (hl : ∀ m ∈ k.metrics, ∃ i, lookup m = .ok i) (hm : ¬ MustMerge lookup k)
    (nx : Nx) (hnx : NxSpec nx) (g : Graph) (hwf : WF g) (hw : PositiveWeights g) (hloop : NoLoops g)
    (bridges req : List String) (hreq : ∀ v ∈ req, v ∈ g.nodes) (hn : req.Nodup)
    (hconn : (∃ r ∈ req, ∀ v ∈ req, ReachIn g req r v) ∨
      ∃ a b, req = [a, b] ∧ (Reach g a b ∨ Reach g b a))
    (generate : List Pair → Res α) (hgen : ∀ js, generate js ≠ .error .join) (merged : Res α) :
    ∃ js, designJoins nx g bridges req = .ok js ∧
      chooseQuery lookup k (singleQuery nx g bridges (.ok req) generate) merged =
        (generate js).map (fun q => (.single, q)) := by
  have hj : ∃ js, designJoins nx g bridges req = .ok js := by
    rcases hconn with ⟨r, hr, hall⟩ | ⟨a, b, rfl, h⟩
    · exact C18_required_root_partial nx hnx g hwf hw hloop req bridges hreq hn r hr hall
    · exact C18_two_views nx hnx g hwf hw hloop a b bridges (hreq a (by simp)) (hreq b (by simp))
        (by simp at hn; exact hn) h
  obtain ⟨js, hjs⟩ := hj
  refine ⟨js, hjs, ?_⟩
  unfold singleQuery
  simp only [hjs]
  cases hg : generate js with
  | ok q => exact C40_single lookup k hl hm q merged
  | error e =>
    exact C40_not_masked lookup k hl hm e (fun h => hgen js (by rw [hg, h])) merged

/-- C40 (f): when the merge does happen without being required, the designer found no way to join
the views; every other failure has been reported. -/
theorem C40_merges_only_without_joins {α : Type} (lookup : String → Res MetricInfo) (k : KindArgs)
    (hl : ∀ m ∈ k.metrics, ∃ i, lookup m = .ok i) (hm : ¬ MustMerge lookup k)
    (nx : Nx) (g : Graph) (bridges : List String) (prepare : Res (List String))
    (hprep : prepare ≠ .error .join) (generate : List Pair → Res α)
    (hgen : ∀ js, generate js ≠ .error .join) (merged : Res α) (q : α)
    (h : chooseQuery lookup k (singleQuery nx g bridges prepare generate) merged = .ok (.merged, q)) :
    k.singleQuery = false ∧ merged = .ok q ∧
      ∃ req, prepare = .ok req ∧ designJoins nx g bridges req = .error .join := by
  cases hs : singleQuery nx g bridges prepare generate with
  | ok a => rw [hs, C40_single lookup k hl hm] at h; cases h
  | error e =>
    by_cases he : e = .join
    · subst he
      rw [hs] at h
      obtain ⟨h1, h2⟩ := C40_fallback lookup k hl hm merged
      cases hk : k.singleQuery with
      | true => rw [h1 hk] at h; cases h
      | false =>
        rw [h2 hk] at h
        refine ⟨rfl, ?_, ?_⟩
        · cases merged with
          | error e => cases h
          | ok x =>
            have := Except.ok.inj h
            simp only [Prod.mk.injEq, true_and] at this
            rw [this]
        · unfold singleQuery at hs
          cases hp : prepare with
          | error e => rw [hp] at hs; simp only [Except.error.injEq] at hs; exact absurd (hs ▸ hp) hprep
          | ok req =>
            rw [hp] at hs
            simp only at hs
            refine ⟨req, rfl, ?_⟩
            cases hd : designJoins nx g bridges req with
            | error e =>
              rw [hd] at hs
              simp only [Except.error.injEq] at hs
              rw [hs]
            | ok js => rw [hd] at hs; exact absurd hs (hgen js)
    · rw [hs, C40_not_masked lookup k hl hm e he] at h; cases h

/-- C40 (g), against the full statement: there are views all reached from one view for which the
query is merged all the same. -/
theorem C40_falls_back_though_connected :
    ∃ (g : Graph) (req : List String) (u : String), WF g ∧ PositiveWeights g ∧ NoLoops g ∧
      (∀ v ∈ req, v ∈ g.nodes) ∧ u ∈ req ∧ (∀ v ∈ req, Reach g u v) ∧
      chooseQuery (fun _ => .ok ⟨none, false, []⟩) ⟨["m"], false, false, false⟩
        (singleQuery nxImpl g [] (.ok req) (fun _ => .ok "joined")) (.ok "merged") =
        .ok (.merged, "merged") := by
  obtain ⟨g, req, u, h1, h2, h3, h4, h5, h6, h7⟩ := C18_rejects_detour
  refine ⟨g, req, u, h1, h2, h3, h4, h5, h6, ?_⟩
  unfold singleQuery
  simp only [h7]
  rfl

/-- A metric that is the ratio of two measures on different dates forces a merge; one on the same
date does not. -/
example : MustMerge (fun _ => .ok ⟨none, true, [some ⟨true, false, some "orders.order"⟩,
      some ⟨true, false, some "visits.visit"⟩]⟩) ⟨["m"], false, false, false⟩ ∧
    ¬ MustMerge (fun _ => .ok ⟨none, true, [some ⟨true, false, some "orders.order"⟩, none,
      some ⟨true, true, some "visits.visit"⟩]⟩) ⟨["m"], false, false, false⟩ := by
  constructor
  · exact .inl ⟨"m", by simp, _, rfl, .inr ⟨rfl, rfl, ⟨true, false, some "orders.order"⟩,
      ⟨true, false, some "visits.visit"⟩, by simp, by simp, rfl, rfl, rfl, rfl, by decide⟩⟩
  · rintro (⟨m, -, i, hi, h⟩ | h | h)
    · cases hi
      rw [← merged_iff] at h
      revert h
      decide
    · cases h
    · cases h

/-! ### C48 -/

theorem getModel_ok {models : List String} {name : String} :
    getModel models (some name) = if name ∈ models then .ok name else .error .accessDenied := by
  unfold getModel
  split
  · rename_i m hm
    have h1 := List.find?_some hm
    have h2 := List.mem_of_find?_eq_some hm
    simp only [beq_iff_eq, Option.some.injEq] at h1
    subst h1
    rw [if_pos h2]
  · rename_i hm
    rw [if_neg]
    intro h
    have := List.find?_eq_none.mp hm name h
    simp at this

theorem modelNames_fst {env : ModelEnv} : ∀ {fs : List String} {m : Option String},
    m ∈ (modelNames env fs).1 ↔ ∃ f ∈ fs, env.fieldModel f = .ok m
  | [], m => by simp [modelNames]
  | f :: fs, m => by
    unfold modelNames
    cases hf : env.fieldModel f with
    | ok x =>
      simp only [List.mem_cons, modelNames_fst (fs := fs), exists_eq_or_imp, hf, Except.ok.injEq]
      exact or_congr_left eq_comm
    | error e =>
      simp only [modelNames_fst (fs := fs), List.mem_cons, exists_eq_or_imp, hf, reduceCtorEq,
        false_or]

theorem modelNames_snd {env : ModelEnv} (hmap : ∀ m ∈ env.models, env.mappingRaises m = false) :
    ∀ {fs : List String}, ((modelNames env fs).2 = [] ∧ ∀ f ∈ fs, ∃ m, env.fieldModel f = .ok m) ∨
      ∃ n, (modelNames env fs).2 = (List.replicate (n + 1) env.models).flatten ∧
        ∃ f ∈ fs, ∃ e, env.fieldModel f = .error e
  | [] => .inl ⟨rfl, by simp⟩
  | f :: fs => by
    have hfil : env.models.filter (fun m => !env.mappingRaises m) = env.models :=
      List.filter_eq_self.mpr (fun m hm => by simp [hmap m hm])
    unfold modelNames
    cases hf : env.fieldModel f with
    | ok x =>
      simp only
      rcases modelNames_snd hmap (fs := fs) with ⟨h1, h2⟩ | ⟨n, h1, g, hg, h2⟩
      · exact .inl ⟨h1, by
          intro g hg
          rcases List.mem_cons.mp hg with rfl | hg
          · exact ⟨x, hf⟩
          · exact h2 g hg⟩
      · exact .inr ⟨n, h1, g, by simp [hg], h2⟩
    | error e =>
      simp only [hfil]
      rcases modelNames_snd hmap (fs := fs) with ⟨h1, -⟩ | ⟨n, h1, -⟩
      · exact .inr ⟨0, by rw [h1]; simp, f, by simp, e, hf⟩
      · exact .inr ⟨n + 1, by rw [h1, List.replicate_succ (n := n + 1), List.flatten_cons],
          f, by simp, e, hf⟩

/-- C48 (a): an explicit model name decides; a name that is not a model is an error. -/
theorem C48_explicit (env : ModelEnv) (name : String) (hne : name ≠ "") (ms ds : List String) :
    modelForQuery env (some name) ms ds =
      if name ∈ env.models then .ok name else .error .accessDenied := by
  unfold modelForQuery
  simp only [if_neg hne]
  exact getModel_ok

/-- C48 (b): without a name the only model of the project is used, whatever the fields; without any
model the query is rejected. -/
theorem C48_only (env : ModelEnv) (ms ds : List String) :
    (∀ m, env.models = [m] → modelForQuery env none ms ds = .ok m) ∧
    (env.models = [] → modelForQuery env none ms ds = .error .query) := by
  constructor
  · intro m h
    simp only [modelForQuery, modelForQuery.pick, h]
  · intro h
    simp only [modelForQuery, modelForQuery.pick, h]

theorem dedup_singleton {α : Type} [DecidableEq α] {l : List α} {m : α} (hne : l ≠ [])
    (h : ∀ x ∈ l, x = m) : l.dedup = [m] := by
  have hn := List.nodup_dedup l
  match hd : l.dedup with
  | [] =>
    cases l with
    | nil => exact absurd rfl hne
    | cons x xs =>
      have : x ∈ (x :: xs).dedup := List.mem_dedup.mpr (by simp)
      rw [hd] at this; cases this
  | [x] =>
    rw [h x (List.mem_dedup.mp (by rw [hd]; simp))]
  | x :: y :: r =>
    rw [hd] at hn
    have hx := h x (List.mem_dedup.mp (by rw [hd]; simp))
    have hy := h y (List.mem_dedup.mp (by rw [hd]; simp))
    simp only [List.nodup_cons, List.mem_cons, not_or] at hn
    exact absurd (hx.trans hy.symm) hn.1.1

theorem pick_many {env : ModelEnv} (h2 : 2 ≤ env.models.length) (ms ds : List String) :
    modelForQuery env none ms ds = deriveModel env (ms ++ ds) := by
  unfold modelForQuery modelForQuery.pick
  match hm : env.models with
  | [] => rw [hm] at h2; simp at h2
  | [_] => rw [hm] at h2; simp at h2
  | _ :: _ :: _ => rfl

/-- C48 (c): with several models, and at least one name that is a field, the model is the one shared
by all the fields among the requested names. -/
theorem C48_shared (env : ModelEnv) (h2 : 2 ≤ env.models.length)
    (hmap : ∀ m ∈ env.models, env.mappingRaises m = false) (ms ds : List String) (m : String)
    (hm : m ∈ env.models) (hsome : ∃ f ∈ ms ++ ds, ∃ x, env.fieldModel f = .ok x)
    (hall : ∀ f ∈ ms ++ ds, ∀ x, env.fieldModel f = .ok x → x = some m) :
    modelForQuery env none ms ds = .ok m := by
  rw [pick_many h2]
  unfold deriveModel
  have hd : (modelNames env (ms ++ ds)).1.dedup = [some m] := by
    refine dedup_singleton ?_ ?_
    · obtain ⟨f, hf, x, hx⟩ := hsome
      exact List.ne_nil_of_mem (modelNames_fst.mpr ⟨f, hf, hx⟩)
    · intro x hx
      obtain ⟨f, hf, h⟩ := modelNames_fst.mp hx
      exact hall f hf x h
  simp only [hd]
  rw [if_pos, getModel_ok, if_pos hm]
  rcases modelNames_snd hmap (fs := ms ++ ds) with ⟨h, -⟩ | ⟨n, h, -⟩
  · simp [h]
  · rw [h, Bool.or_eq_true]
    right
    rw [List.any_eq_true]
    exact ⟨m, by simp [List.replicate_succ, hm], by simp⟩

/-- C48 (d): with several models, requested fields of different models are rejected. -/
theorem C48_different (env : ModelEnv) (h2 : 2 ≤ env.models.length) (ms ds : List String)
    (f g : String) (hf : f ∈ ms ++ ds) (hg : g ∈ ms ++ ds) (x y : Option String)
    (hx : env.fieldModel f = .ok x) (hy : env.fieldModel g = .ok y) (hne : x ≠ y) :
    modelForQuery env none ms ds = .error .query := by
  rw [pick_many h2]
  unfold deriveModel
  have h := two_of_length.mpr ⟨x, modelNames_fst.mpr ⟨f, hf, hx⟩, y, modelNames_fst.mpr ⟨g, hg, hy⟩,
    hne⟩
  match hd : (modelNames env (ms ++ ds)).1.dedup with
  | [] => rw [hd] at h; simp at h
  | [_] => rw [hd] at h; simp at h
  | a :: b :: r => simp only [hd]

/-- C48 (e): the converse. A model is picked only if the project has it and every name that is a
field belongs to it. -/
theorem C48_sound (env : ModelEnv) (h2 : 2 ≤ env.models.length) (ms ds : List String) (m : String)
    (h : modelForQuery env none ms ds = .ok m) :
    m ∈ env.models ∧ ∀ f ∈ ms ++ ds, ∀ x, env.fieldModel f = .ok x → x = some m := by
  rw [pick_many h2] at h
  unfold deriveModel at h
  match hd : (modelNames env (ms ++ ds)).1.dedup, hs : (modelNames env (ms ++ ds)).2 with
  | [], x :: xs =>
    simp only [hd, hs] at h
    rw [getModel_ok] at h
    split at h
    · rename_i hin
      cases h
      refine ⟨hin, ?_⟩
      intro f hf y hy
      have : y ∈ (modelNames env (ms ++ ds)).1.dedup :=
        List.mem_dedup.mpr (modelNames_fst.mpr ⟨f, hf, hy⟩)
      rw [hd] at this; cases this
    · cases h
  | [], [] => simp only [hd, hs] at h; cases h
  | [x], maps =>
    simp only [hd, hs] at h
    split at h
    · cases x with
      | none =>
        unfold getModel at h
        rw [List.find?_eq_none.mpr (by simp)] at h
        cases h
      | some x =>
        rw [getModel_ok] at h
        split at h
        · rename_i hin
          cases h
          refine ⟨hin, ?_⟩
          intro f hf y hy
          have : y ∈ (modelNames env (ms ++ ds)).1.dedup :=
            List.mem_dedup.mpr (modelNames_fst.mpr ⟨f, hf, hy⟩)
          rw [hd] at this
          exact List.mem_singleton.mp this
        · cases h
    · cases h
  | a :: b :: r, _ => simp only [hd, hs] at h; cases h

theorem mostCommonGo_first (l : List String) (best : String) :
    ∀ (xs : List String), (∀ x ∈ xs, l.count x ≤ l.count best) → mostCommonGo l best xs = best
  | [], _ => rfl
  | x :: xs, h => by
    unfold mostCommonGo
    rw [if_neg (Nat.not_lt.mpr (h x (by simp)))]
    exact mostCommonGo_first l best xs (fun y hy => h y (by simp [hy]))

theorem count_flatten_replicate (l : List String) (x : String) :
    ∀ n, (List.replicate n l).flatten.count x = n * l.count x
  | 0 => by simp
  | n + 1 => by
    rw [List.replicate_succ, List.flatten_cons, List.count_append, count_flatten_replicate l x n,
      Nat.succ_mul, Nat.add_comm]

/-- C48 (f): when no requested name is a field the first model of the project is used, whichever
models define the names as mappings: the names are not looked at. -/
theorem C48_mapping_only (env : ModelEnv) (h2 : 2 ≤ env.models.length) (hn : env.models.Nodup)
    (hmap : ∀ m ∈ env.models, env.mappingRaises m = false) (ms ds : List String)
    (hne : ms ++ ds ≠ []) (hnone : ∀ f ∈ ms ++ ds, ∀ x, env.fieldModel f ≠ .ok x) :
    modelForQuery env none ms ds = .ok (env.models.headD "") := by
  rw [pick_many h2]
  unfold deriveModel
  have h1 : (modelNames env (ms ++ ds)).1 = [] := by
    rw [List.eq_nil_iff_forall_not_mem]
    intro x hx
    obtain ⟨f, hf, h⟩ := modelNames_fst.mp hx
    exact hnone f hf x h
  rcases modelNames_snd hmap (fs := ms ++ ds) with ⟨-, h⟩ | ⟨n, h, -⟩
  · cases hl : ms ++ ds with
    | nil => exact absurd hl hne
    | cons f fs =>
      rw [hl] at h hnone
      obtain ⟨m, hm⟩ := h f (by simp)
      exact absurd hm (hnone f (by simp) m)
  · match hm : env.models with
    | [] => rw [hm] at h2; simp at h2
    | x :: rest =>
      have hs : (modelNames env (ms ++ ds)).2 =
          x :: (rest ++ (List.replicate n (x :: rest)).flatten) := by
        rw [h, hm, List.replicate_succ, List.flatten_cons, List.cons_append]
      simp only [h1, hs, List.dedup_nil]
      rw [mostCommonGo_first, getModel_ok, if_pos (by simp)]
      · rfl
      · intro y hy
        rw [← hs, h, hm, count_flatten_replicate, count_flatten_replicate]
        rw [hm] at hn
        refine Nat.mul_le_mul_left _ ?_
        rw [List.count_eq_one_of_mem hn (List.mem_cons_self ..)]
        exact List.nodup_iff_count_le_one.mp hn y

/-- C48 (g): so a query for a mapping that only the second model defines is run against the first
model. (`mapped` says which model defines which mapping; the code asks but ignores the answer.) -/
theorem C48_wrong_model :
    ∃ (env : ModelEnv) (mapped : String → String → Bool) (name : String),
      env.models = ["sales", "support"] ∧ mapped "sales" name = false ∧
      mapped "support" name = true ∧ modelForQuery env none [] [name] = .ok "sales" :=
  ⟨⟨["sales", "support"], fun _ => .error .accessDenied, fun _ => false⟩,
    fun m n => m == "support" && n == "account", "account", rfl, by decide, by decide, by decide⟩

/-- The hypotheses are met by a project of two models, a query over the fields of one of them. -/
example : modelForQuery ⟨["sales", "support"],
      fun f => if f = "orders.total" then .ok (some "support") else
        if f = "visits.count" then .ok (some "sales") else .error .accessDenied, fun _ => false⟩
      none ["orders.total"] ["date"] = .ok "support" ∧
    modelForQuery ⟨["sales", "support"],
      fun f => if f = "orders.total" then .ok (some "support") else
        if f = "visits.count" then .ok (some "sales") else .error .accessDenied, fun _ => false⟩
      none ["orders.total"] ["visits.count"] = .error .query := by decide

end ML
