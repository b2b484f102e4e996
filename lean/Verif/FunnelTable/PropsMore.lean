import Verif.FunnelTable.Props
import Verif.Answer.PropsMore
import Verif.Answer.PropsEx
/-
C38: funnel queries that are answered, and those that are not.
-/
set_option autoImplicit false
namespace ML
open Spec

section
variable {ρ : Type}

/-- The raw columns have each name once. -/
theorem columnOf_present {fs : List AnsField} {f : AnsField} (hf : f ∈ fs) : columnOf (rawSelect fs) f.label ≠ none := by
  have key : ∀ (l : List (SqlExpr × String)) (seen : List String), ((dedupSelect seen l).map Prod.snd).Nodup ∧ (∀ c ∈ dedupSelect seen l, c.2 ∉ seen) ∧
      ∀ c ∈ l, c.2 ∉ seen → c.2 ∈ (dedupSelect seen l).map Prod.snd := by
    intro l
    induction l with
    | nil => intro seen; simp [dedupSelect]
    | cons c l ih =>
      intro seen
      rw [dedupSelect]
      split_ifs with hc
      · obtain ⟨h1, h2, h3⟩ := ih seen
        refine ⟨h1, h2, fun d hd hn => ?_⟩
        rcases List.mem_cons.mp hd with rfl | hd
        · exact absurd hc hn
        · exact h3 d hd hn
      · obtain ⟨h1, h2, h3⟩ := ih (c.2 :: seen)
        refine ⟨?_, ?_, ?_⟩
        · rw [List.map_cons, List.nodup_cons]
          refine ⟨fun hm => ?_, h1⟩
          obtain ⟨d, hd, e⟩ := List.mem_map.mp hm
          exact h2 d hd (by rw [e]; simp)
        · intro d hd
          rcases List.mem_cons.mp hd with rfl | hd
          · exact hc
          · exact fun hn => h2 d hd (List.mem_cons_of_mem _ hn)
        · intro d hd hn
          by_cases he : d.2 = c.2
          · simp [he]
          · rcases List.mem_cons.mp hd with rfl | hd
            · exact absurd rfl he
            · rw [List.map_cons]
              refine List.mem_cons_of_mem _ (h3 d hd ?_)
              simp [he, hn]
  obtain ⟨h1, -, h3⟩ := key (fs.map (fun f => (rawExpr f, f.label))) []
  have hm := h3 (rawExpr f, f.label) (List.mem_map.mpr ⟨f, hf, rfl⟩) (by simp)
  obtain ⟨c, hc, e⟩ := List.mem_map.mp hm
  obtain ⟨i, hi⟩ := columnOf_nodup (sel := rawSelect fs) h1 hc
  simp only at e
  rw [← e, hi]
  simp

/-- All the parts of the fields of the base query. -/
theorem funnelFields_all {P : FunnelProject} {q : FunnelQuestion} {fs : List AnsField} {dateField linkField : AnsField} {metrics : List String} {lookup : List AnsField}
    (h : funnelFields P q = .ok (fs, dateField, linkField, metrics, lookup)) :
    ∃ date link lk keys ds ms, P.get date = .ok dateField ∧ P.get link = .ok linkField ∧ eventDate q.viewName (q.metrics.map q.dateOf) = .ok date ∧ P.link = .ok link ∧
      enrichDims P.get q.lookup (q.dimensions ++ [date, link] ++ setOf (q.steps.flatten.map q.fieldOf)) = .ok lk ∧ enrichMetrics P lk metrics = .ok (lookup, keys) ∧
      Names P.toAnsProject (q.dimensions ++ [date, link] ++ setOf (q.steps.flatten.map q.fieldOf)) ds ∧ Names P.toAnsProject metrics ms ∧ fs = ds ++ keys ++ ms := by
  unfold funnelFields at h
  cases h1 : eventDate q.viewName (q.metrics.map q.dateOf) with
  | error e => rw [h1] at h; cases h
  | ok date =>
    rw [h1] at h
    dsimp only at h
    cases h2 : P.get date with
    | error e => rw [h2] at h; cases h
    | ok df =>
      rw [h2] at h
      dsimp only at h
      cases h3 : P.link with
      | error e => rw [h3] at h; cases h
      | ok link =>
        rw [h3] at h
        dsimp only at h
        cases h4 : P.get link with
        | error e => rw [h4] at h; cases h
        | ok lf =>
          rw [h4] at h
          dsimp only at h
          cases h5 : enrichDims P.get q.lookup (q.dimensions ++ [date, link] ++ setOf (q.steps.flatten.map q.fieldOf)) with
          | error e => rw [h5] at h; cases h
          | ok lk =>
            rw [h5] at h
            dsimp only at h
            cases h6 : enrichMetrics P lk (q.metrics ++ setOf (q.having.map Prod.fst)) with
            | error e => rw [h6] at h; cases h
            | ok x =>
              obtain ⟨lk', keys⟩ := x
              rw [h6] at h
              dsimp only at h
              cases h7 : getAll P.get (q.dimensions ++ [date, link] ++ setOf (q.steps.flatten.map q.fieldOf)) with
              | error e => rw [h7] at h; cases h
              | ok ds =>
                rw [h7] at h
                dsimp only at h
                cases h8 : getAll P.get (q.metrics ++ setOf (q.having.map Prod.fst)) with
                | error e => rw [h8] at h; cases h
                | ok ms =>
                  rw [h8] at h
                  cases h
                  exact ⟨date, link, lk, keys, ds, ms, h2, h4, rfl, rfl, h5, h6, getAll_names (P := P.toAnsProject).mp h7, getAll_names (P := P.toAnsProject).mp h8, rfl⟩

/-- What the loop over dimensions leaves in `field_lookup` was there or is one of them. -/
theorem enrichDims_mem {get : String → Res AnsField} {lookup : List AnsField} {ns : List String} {l : List AnsField} (h : enrichDims get lookup ns = .ok l) :
    (∀ f ∈ l, f ∈ lookup ∨ ∃ n ∈ ns, get n = .ok f) ∧ ∀ f ∈ lookup, f ∈ l := by
  induction ns generalizing lookup with
  | nil => rw [enrichDims] at h; cases h; exact ⟨fun f hf => .inl hf, fun f hf => hf⟩
  | cons n ns ih =>
    rw [enrichDims] at h
    cases h1 : get n with
    | error e => rw [h1] at h; cases h
    | ok g =>
      rw [h1] at h
      dsimp only at h
      obtain ⟨i1, i2⟩ := ih h
      constructor
      · intro f hf
        rcases i1 f hf with hf | ⟨n', hn', hf⟩
        · split_ifs at hf
          · exact .inl hf
          · rcases List.mem_append.mp hf with hf | hf
            · exact .inl hf
            · rw [List.mem_singleton] at hf
              subst hf
              exact .inr ⟨n, by simp, h1⟩
        · exact .inr ⟨n', List.mem_cons_of_mem _ hn', hf⟩
      · intro f hf
        refine i2 f ?_
        split_ifs
        · exact hf
        · exact List.mem_append_left _ hf

/-- The key of a metric's view was in `field_lookup`, is added, or has the name of a metric. -/
theorem enrichMetrics_added {P : FunnelProject} {lookup : List AnsField} {ns : List String} {l ks : List AnsField} (h : enrichMetrics P lookup ns = .ok (l, ks)) :
    ∀ n ∈ ns, ∀ m, P.get n = .ok m → ∀ k, P.viewKey m.view = some k → ∃ g, g.fid = k.fid ∧ (g ∈ lookup ∨ g ∈ ks ∨ ∃ n ∈ ns, P.get n = .ok g) := by
  induction ns generalizing lookup l ks with
  | nil => simp
  | cons n ns ih =>
    rw [enrichMetrics] at h
    cases h1 : P.get n with
    | error e => rw [h1] at h; cases h
    | ok m =>
      rw [h1] at h
      dsimp only at h
      cases h2 : P.viewKey m.view with
      | none => rw [h2] at h; cases h
      | some k =>
        rw [h2] at h
        dsimp only at h
        split at h
        · cases h
        · rename_i l' ks' h3
          simp only [Except.ok.injEq, Prod.mk.injEq] at h
          obtain ⟨-, rfl⟩ := h
          intro x hx m' hm' k' hk'
          rcases List.mem_cons.mp hx with rfl | hx
          · rw [h1] at hm'
            cases hm'
            rw [h2] at hk'
            cases hk'
            by_cases hc : k.fid ∉ lookup.map AnsField.fid
            · exact ⟨k, rfl, .inr (.inl (by rw [if_pos hc]; simp))⟩
            · rw [not_not] at hc
              obtain ⟨g, hg, e⟩ := List.mem_map.mp hc
              exact ⟨g, e, .inl hg⟩
          · obtain ⟨g, hg, hor⟩ := ih h3 x hx m' hm' k' hk'
            have hks : ∀ y ∈ ks', y ∈ (if k.fid ∉ lookup.map AnsField.fid then k :: ks' else ks') := by
              intro y hy
              split_ifs
              · exact hy
              · exact List.mem_cons_of_mem _ hy
            rcases hor with hg1 | hg1 | ⟨n', hn', hg1⟩
            · have : g ∈ lookup ∨ (k.fid ∉ lookup.map AnsField.fid ∧ g = k) ∨ g = m := by
                split_ifs at hg1 with ha hb
                all_goals (try simp only [List.mem_append, List.mem_singleton] at hg1)
                all_goals tauto
              rcases this with h4 | ⟨h4, rfl⟩ | rfl
              · exact ⟨g, hg, .inl h4⟩
              · exact ⟨g, hg, .inr (.inl (by rw [if_pos h4]; simp))⟩
              · exact ⟨g, hg, .inr (.inr ⟨n, by simp, h1⟩)⟩
            · exact ⟨g, hg, .inr (.inl (hks g hg1))⟩
            · exact ⟨g, hg, .inr (.inr ⟨n', List.mem_cons_of_mem _ hn', hg1⟩)⟩

/-- The keys that are added were not in `field_lookup`. -/
theorem enrichMetrics_new {P : FunnelProject} {lookup : List AnsField} {ns : List String} {l ks : List AnsField} (h : enrichMetrics P lookup ns = .ok (l, ks)) :
    ∀ k ∈ ks, k.fid ∉ lookup.map AnsField.fid := by
  induction ns generalizing lookup l ks with
  | nil => rw [enrichMetrics] at h; cases h; simp
  | cons n ns ih =>
    rw [enrichMetrics] at h
    cases h1 : P.get n with
    | error e => rw [h1] at h; cases h
    | ok m =>
      rw [h1] at h
      dsimp only at h
      cases h2 : P.viewKey m.view with
      | none => rw [h2] at h; cases h
      | some k =>
        rw [h2] at h
        dsimp only at h
        split at h
        · cases h
        · rename_i l' ks' h3
          simp only [Except.ok.injEq, Prod.mk.injEq] at h
          obtain ⟨-, rfl⟩ := h
          intro x hx hm
          have hsub : ∀ y ∈ ks', y.fid ∉ lookup.map AnsField.fid := by
            intro y hy hyl
            refine ih h3 y hy ?_
            obtain ⟨g, hg, e⟩ := List.mem_map.mp hyl
            refine List.mem_map.mpr ⟨g, ?_, e⟩
            split_ifs <;> simp [hg]
          split_ifs at hx with hc
          · exact hsub x hx hm
          · rcases List.mem_cons.mp hx with rfl | hx
            · exact hc hm
            · exact hsub x hx hm

theorem forall₂_labels {l : List AnsField} {cs : List (SqlExpr × String)} (h : List.Forall₂ (fun f c => c.2 = f.label) l cs) : cs.map Prod.snd = l.map AnsField.label := by
  induction h with
  | nil => rfl
  | cons h _ ih => rw [List.map_cons, List.map_cons, h, ih]

/-- C38: a funnel query is answered when its fields are told apart by name, its window is usable, no filter is on a key of a metric's view, and every field of its columns is asked for
once. -/
theorem C38_answered (P : FunnelProject) (w : Warehouse) (known : String → Bool) (q : FunnelQuestion) (s : FunnelStmt) (hs : buildFunnel P w known q = .ok s)
    (ds ms : List AnsField) (hp : FunnelProper P q ds ms) (hid : ∀ f g, FunnelField P q f → FunnelField P q g → f.view ++ "." ++ f.name = g.view ++ "." ++ g.name → f = g) (unit : String) (value : ℤ)
    (hw : GoodWindow known q.window unit value) (hlk : ∀ f ∈ ms, ∀ k, P.viewKey f.view = some k → k ∉ q.lookup) (hnd : ((ms ++ ds).map AnsField.label).Nodup) (D : Db ρ)
    (diff : String → ℚ → ℚ → Option ℤ) : ∃ out, s.Answers D diff out := by
  obtain ⟨fs, dateField, linkField, metrics, lookup, gs, h1, h2, h3, h4, h5, h6, h7, h8, h9, h10, h11⟩ := buildFunnel_ok hs
  obtain ⟨g1, g2, -⟩ := funnelFields_ok h1
  obtain ⟨date, link, lk, keys, bd, bm, a1, a2, a3, a4, a5, a6, a7, a8, rfl⟩ := funnelFields_all h1
  obtain ⟨-, b2, b3, b4, b5⟩ := funnelBase_ok h2
  have hgs : gs = ms ++ ds := by
    refine (getAll_names (P := P.toAnsProject).mp h4).unique ?_
    rw [g2]
    exact hp.metrics.append hp.dims
  subst hgs
  have hbm : bm = ms := a8.unique (by rw [g2]; exact hp.metrics)
  subst hbm
  have present : ∀ f, f ∈ bd ++ keys ++ bm → columnOf s.base.select f.label ≠ none := fun f hf => by rw [b3]; exact columnOf_present hf
  have inD : ∀ n ∈ q.dimensions ++ [date, link] ++ setOf (q.steps.flatten.map q.fieldOf), ∀ f, P.get n = .ok f → f ∈ bd ++ keys ++ bm := by
    intro n hn f hf
    obtain ⟨g, hg, hgn⟩ := names_mem a7 hn
    rw [hf] at hgn
    cases hgn
    exact List.mem_append_left _ (List.mem_append_left _ hg)
  have hkey : ∀ f ∈ bm, ∀ k, P.viewKey f.view = some k → k ∈ bd ++ keys ++ bm := by
    intro f hf k hk
    obtain ⟨n, hn, hfn⟩ := mem_names a8 hf
    obtain ⟨g, hg, hor⟩ := enrichMetrics_added a6 n hn f hfn k hk
    have hkf : FunnelField P q k := .inr (.inr ⟨_, hk⟩)
    rcases hor with hg1 | hg1 | ⟨n', hn', hg1⟩
    · rcases (enrichDims_mem a5).1 g hg1 with h | ⟨n', hn', h⟩
      · have := hid g k (.inl h) hkf hg
        subst this
        exact absurd h (hlk f hf g hk)
      · have := hid g k (.inr (.inl ⟨_, h⟩)) hkf hg
        subst this
        exact inD n' hn' g h
    · have := hid g k (.inr (.inr (enrichMetrics_keys a6 g hg1))) hkf hg
      subst this
      exact List.mem_append_left _ (List.mem_append_right _ hg1)
    · have := hid g k (.inr (.inl ⟨_, hg1⟩)) hkf hg
      subst this
      obtain ⟨y, hy, hyn⟩ := names_mem a8 hn'
      rw [hg1] at hyn
      cases hyn
      exact List.mem_append_right _ hy
  have hcol := funnelColumns_ok h5
  have hlabs : s.columns.map Prod.snd = (bm ++ ds).map AnsField.label := by
    refine forall₂_labels (forall₂_imp_both hcol fun a _ b _ h => h.1)
  have hN : ∀ c ∈ s.names, columnOf s.base.select c ≠ none := by
    intro c hc
    unfold FunnelStmt.names at hc
    rcases List.mem_append.mp hc with hc | hc
    · rcases List.mem_append.mp hc with hc | hc
      · rcases List.mem_append.mp hc with hc | hc
        · rcases List.mem_cons.mp hc with rfl | hc
          · rw [h7]
            exact present _ (inD date (by simp) _ a1)
          · rw [List.mem_singleton] at hc
            subst hc
            rw [h8]
            exact present _ (inD link (by simp) _ a2)
        · obtain ⟨t, ht, hc⟩ := List.mem_flatMap.mp hc
          obtain ⟨i, hi, hc⟩ := List.mem_filterMap.mp hc
          rw [h9] at hc
          dsimp only at hc
          cases hg : P.get (q.fieldOf i) with
          | error e => rw [hg] at hc; cases hc
          | ok f =>
            rw [hg] at hc
            cases hc
            refine present f (inD (q.fieldOf i) (List.mem_append_right _ (List.mem_dedup.mpr (List.mem_map.mpr ⟨i, ?_, rfl⟩))) f hg)
            rw [← funnelSql_conds h3]
            exact List.mem_flatten.mpr ⟨t.cond, List.mem_map.mpr ⟨t, ht, rfl⟩, hi⟩
      · obtain ⟨c', hc', hc⟩ := List.mem_flatMap.mp hc
        obtain ⟨i, hi⟩ := List.mem_iff_getElem?.mp hc'
        obtain ⟨f, hf, hx1, hx2, hx3⟩ := forall₂_get' hcol hi
        rcases List.mem_append.mp (List.mem_of_getElem? hf) with hfm | hfm
        · obtain ⟨m, hm, -⟩ := hp.measure f hfm
          obtain ⟨a, ha, he⟩ := hx3 m hm
          obtain ⟨n, hn, hfn⟩ := mem_names a8 hfm
          obtain ⟨k, hk⟩ := enrichMetrics_haskey a6 n hn f hfn
          rw [he] at hc
          rcases agg_texts ha (id := k.fid) (pk := k.label) (by simp [aliasMeasure, hk]) (hp.distinct f hfm k hk) c hc with e | e
          · rw [e]
            exact present f (List.mem_append_right _ hfm)
          · rw [e]
            exact present k (hkey f hfm k hk)
        · obtain ⟨t, ht⟩ := hp.dimension f hfm
          rw [hx2 t ht] at hc
          rw [SqlExpr.texts, List.mem_singleton] at hc
          rw [hc]
          obtain ⟨n, hn, hfn⟩ := mem_names hp.dims hfm
          exact present f (inD n (by simp [hn]) f hfn)
    · rw [h10] at hc
      obtain ⟨f, hf, rfl⟩ := List.mem_map.mp hc
      have hf := (List.mem_filter.mp hf).1
      rcases List.mem_append.mp hf with hf | hf
      · exact present f (List.mem_append_right _ hf)
      · obtain ⟨n, hn, hfn⟩ := mem_names hp.dims hf
        exact present f (inD n (by simp [hn]) f hfn)
  have hH : ∀ h ∈ s.having, columnOf s.columns h.1 ≠ none := by
    intro h hh
    obtain ⟨i, hi⟩ := List.mem_iff_getElem?.mp hh
    obtain ⟨a, ha, f, hf, rfl⟩ := forall₂_get' (havingColumns_ok h6) hi
    have hfm : f ∈ bm := by
      obtain ⟨g, hg, hgn⟩ := names_mem hp.metrics (n := a.1) (List.mem_append_right _ (List.mem_dedup.mpr (List.mem_map.mpr ⟨a, List.mem_of_getElem? ha, rfl⟩)))
      rw [hf] at hgn
      cases hgn
      exact hg
    obtain ⟨j, hj⟩ := List.mem_iff_getElem?.mp (List.mem_append_left ds hfm)
    obtain ⟨c, hc1, hc2, -⟩ := forall₂_get hcol hj
    obtain ⟨i, hi⟩ := columnOf_nodup (by rw [hlabs]; exact hnd) (List.mem_of_getElem? hc1)
    dsimp only
    rw [← hc2, hi]
    simp
  · classical
    obtain ⟨o, ho, hk⟩ := clause_keeps (ρ := ρ) (P.access (lookup.map AnsField.view).dedup) q.wheres hp.wheres
    rw [b4] at ho
    cases ho
    let p : List ρ → Bool := fun G => decide ((∀ i ∈ P.access (lookup.map AnsField.view).dedup, s.base.truth D G i = .t) ∧ ∀ v ∈ meanings (s.base.truth D G) q.wheres, v = .t)
    let rows := (D.rows s.base.views).filter (fun r => p [r])
    have hkeep : KeepsItems D s.base s.base.whereText ((D.rows s.base.views).map (fun r => [r])) (rows.map (fun r => [r])) :=
      (hk D s.base _ _).mpr ⟨p, fun G => by simp [p], by rw [singles_filter]⟩
    have hsne : q.steps ≠ [] := by
      intro e
      rw [e] at h3
      simp [funnelSql, stepSqls] at h3
    obtain ⟨parts, e1, -, -⟩ := C38_steps known (s.data D diff rows) q.window unit value hw q.steps hsne
    unfold evalFunnel at e1
    rw [h3] at e1
    dsimp only at e1
    cases e2 : evalSteps (s.data D diff rows) [] s.steps with
    | error e => rw [e2] at e1; cases e1
    | ok ctes =>
      rw [e2] at e1
      dsimp only at e1
      have hf := mapM_res_forall₂ e1
      have : ∃ bs, s.union.mapM (s.branch D ctes) = some bs := by
        clear e1
        generalize s.union = us at hf
        induction hf with
        | nil => exact ⟨[], rfl⟩
        | @cons u b us bs hub _ ih =>
          obtain ⟨cs, hcs⟩ := ih
          cases hd : dictGet ctes u.cte with
          | none => rw [hd] at hub; cases hub
          | some rows =>
            refine ⟨(s.groups D (rows.map Prod.fst)).map (s.line D u.order) :: cs, ?_⟩
            rw [List.mapM_cons, hcs]
            unfold FunnelStmt.branch
            rw [hd]
            rfl
      obtain ⟨bs, hbs⟩ := this
      exact ⟨_, hN, hH, rows, ctes, bs, _, hkeep, e2, hbs, List.Perm.refl _, rfl⟩

/-- C38: when a filter is on the key of a summed metric's view and the key is not otherwise asked for, the key is no column of the base query: no warehouse answers the statement. -/
theorem C38_key_missing (P : FunnelProject) (w : Warehouse) (known : String → Bool) (q : FunnelQuestion) (s : FunnelStmt) (hs : buildFunnel P w known q = .ok s)
    (ds ms : List AnsField) (hp : FunnelProper P q ds ms) (hsym : supportsSymmetric w = true) (n : String) (hn : n ∈ q.metrics) (f k : AnsField) (m : Measure)
    (hf : P.get n = .ok f) (hm : f.sql = .measure m) (ht : m.type = .sum) (hk : P.viewKey f.view = some k) (hlk : k ∈ q.lookup)
    (hd : ∀ n' ∈ q.dimensions ++ q.steps.flatten.map q.fieldOf, P.get n' ≠ .ok k) (hdate : ∀ n', eventDate q.viewName (q.metrics.map q.dateOf) = .ok n' → P.get n' ≠ .ok k)
    (hlink : ∀ n', P.link = .ok n' → P.get n' ≠ .ok k) (D : Db ρ) (diff : String → ℚ → ℚ → Option ℤ) (out : List (Nat × List Val)) : ¬ s.Answers D diff out := by
  rintro ⟨hN, -⟩
  obtain ⟨fs, dateField, linkField, metrics, lookup, gs, h1, h2, -, h4, h5, -⟩ := buildFunnel_ok hs
  obtain ⟨-, g2, -⟩ := funnelFields_ok h1
  obtain ⟨date, link, lk, keys, bd, bm, a1, a2, a3, a4, a5, a6, a7, a8, rfl⟩ := funnelFields_all h1
  obtain ⟨-, -, b3, -⟩ := funnelBase_ok h2
  obtain ⟨⟨kn, hkn⟩, ks, hks⟩ := hp.keys _ _ hk
  have hgs : gs = ms ++ ds := by
    refine (getAll_names (P := P.toAnsProject).mp h4).unique ?_
    rw [g2]
    exact hp.metrics.append hp.dims
  subst hgs
  have hbm : bm = ms := a8.unique (by rw [g2]; exact hp.metrics)
  subst hbm
  have hfm : f ∈ bm := by
    obtain ⟨g, hg, hgn⟩ := names_mem a8 (n := n) (by rw [g2]; exact List.mem_append_left _ hn)
    rw [hf] at hgn
    cases hgn
    exact hg
  have hcolumn : k.label ∈ s.names := by
    obtain ⟨j, hj⟩ := List.mem_iff_getElem?.mp (List.mem_append_left ds hfm)
    obtain ⟨c, hc1, -, -, hc2⟩ := forall₂_get (funnelColumns_ok h5) hj
    obtain ⟨a, ha, he⟩ := hc2 m hm
    have hpk : (aliasMeasure P f m).pk = some (k.fid, k.label) := by simp [aliasMeasure, hk]
    have hty : (aliasMeasure P f m).type = .sum := ht
    unfold aggregateSql needsSymmetric pkText at ha
    rw [hty, hpk] at ha
    simp only [hsym, if_true, Except.ok.injEq] at ha
    unfold FunnelStmt.names
    refine List.mem_append_left _ (List.mem_append_right _ (List.mem_flatMap.mpr ⟨c, List.mem_of_getElem? hc1, ?_⟩))
    rw [he, ← ha]
    simp [SqlExpr.texts, symSum, Agg.texts, Scalar.texts]
  have hco := hN _ hcolumn
  rw [b3] at hco
  obtain ⟨⟨i, x⟩, hx⟩ := Option.ne_none_iff_exists'.mp hco
  have hmem := List.mem_of_getElem? (columnOf_some hx).1
  have hsub : ∀ (l : List (SqlExpr × String)) (seen : List String), ∀ c ∈ dedupSelect seen l, c ∈ l := by
    intro l
    induction l with
    | nil => simp [dedupSelect]
    | cons c l ih =>
      intro seen d hd
      rw [dedupSelect] at hd
      split_ifs at hd
      · exact List.mem_cons_of_mem _ (ih _ d hd)
      · rcases List.mem_cons.mp hd with rfl | hd
        · simp
        · exact List.mem_cons_of_mem _ (ih _ d hd)
  obtain ⟨g, hg, e⟩ := List.mem_map.mp (hsub _ _ _ hmem)
  simp only [Prod.mk.injEq] at e
  rcases List.mem_append.mp hg with hg | hg
  · rcases List.mem_append.mp hg with hg | hg
    · obtain ⟨n', hn', hgn⟩ := mem_names a7 hg
      have := hp.labels _ _ _ _ hgn hkn e.2
      subst this
      rcases List.mem_append.mp hn' with hn' | hn'
      · rcases List.mem_append.mp hn' with hn' | hn'
        · exact hd n' (List.mem_append_left _ hn') hgn
        · rcases List.mem_cons.mp hn' with rfl | hn'
          · exact hdate n' a3 hgn
          · rw [List.mem_singleton] at hn'
            subst hn'
            exact hlink n' a4 hgn
      · exact hd n' (List.mem_append_right _ (List.mem_dedup.mp hn')) hgn
    · obtain ⟨v, hv⟩ := enrichMetrics_keys a6 g hg
      obtain ⟨⟨n', hgn⟩, -⟩ := hp.keys v g hv
      have := hp.labels _ _ _ _ hgn hkn e.2
      subst this
      exact enrichMetrics_new a6 g hg (List.mem_map.mpr ⟨g, (enrichDims_mem a5).2 g hlk, rfl⟩)
  · obtain ⟨n', -, hgn⟩ := mem_names a8 hg
    have := hp.labels _ _ _ _ hgn hkn e.2
    subst this
    obtain ⟨m', hm', -⟩ := hp.measure g hg
    rw [hks] at hm'
    cases hm'

end

/-! ### A concrete funnel -/

/-- (an example; it models no file in /repo) Events with a key, a person, a time, a kind, a country and an amount. -/
def funTable : List (String × AnsField) :=
  [("country", ⟨"events", "country", false, .dimension "e.country"⟩),
   ("kind", ⟨"events", "kind", false, .dimension "e.kind"⟩),
   ("person", ⟨"events", "person", false, .dimension "e.person"⟩),
   ("events.at_raw", ⟨"events", "at_raw", false, .dimension "e.at"⟩),
   ("id", ⟨"events", "id", true, .dimension "e.id"⟩),
   ("revenue", ⟨"events", "revenue", false, .measure { type := .sum, sql := "e.amount", pk := some ("events.id", "e.id"), distinctKey := "e.id" }⟩),
   ("orders", ⟨"events", "orders", false, .measure { type := .count, sql := "e.amount", pk := some ("events.id", "e.id"), distinctKey := "e.id" }⟩)]

/-- (an example; it models no file in /repo) The key of the events. -/
def funKey : AnsField := ⟨"events", "id", true, .dimension "e.id"⟩

/-- (an example; it models no file in /repo) The dimension and the two metrics of the question. -/
def funCountry : AnsField := ⟨"events", "country", false, .dimension "e.country"⟩
/-- (an example; it models no file in /repo) The revenue. -/
def funRevenue : AnsField := ⟨"events", "revenue", false, .measure { type := .sum, sql := "e.amount", pk := some ("events.id", "e.id"), distinctKey := "e.id" }⟩
/-- (an example; it models no file in /repo) The number of orders. -/
def funOrders : AnsField := ⟨"events", "orders", false, .measure { type := .count, sql := "e.amount", pk := some ("events.id", "e.id"), distinctKey := "e.id" }⟩
/-- (an example; it models no file in /repo) The kind of an event. -/
def funKind : AnsField := ⟨"events", "kind", false, .dimension "e.kind"⟩

/-- (an example; it models no file in /repo) The project: events carry an access filter, comparison 9. -/
def funP : FunnelProject where
  get := ansGet funTable
  fpk _ := .doesNotExist
  access _ := [9]
  viewKey v := if v = "events" then some funKey else none
  link := .ok "person"
  distinctAlias _ := "events_id"

/-- (an example; it models no file in /repo) Revenue by country along visit and purchase, where the kind is known (comparison 5), with at least one order (comparison 6). -/
def funQ : FunnelQuestion where
  metrics := ["revenue"]
  dimensions := ["country"]
  wheres := [.leaf { field := some "kind", first := 5 }]
  having := [("orders", 6)]
  steps := [[0], [1]]
  window := ⟨some "hour", some 24⟩
  viewName := none
  dateOf := fun _ => ("events", "at")
  hasOrder := false
  limit := none
  lookup := [funRevenue, funCountry, funKind]
  fieldOf i := if i = 6 then "orders" else if i = 9 then "person" else "kind"

theorem funP_known {n : String} {f : AnsField} (h : funP.get n = .ok f) : f ∈ funTable.map Prod.snd := by
  have h : ansGet funTable n = .ok f := h
  unfold ansGet at h
  cases hd : dictGet funTable n with
  | none => rw [hd] at h; cases h
  | some g =>
    rw [hd] at h
    cases h
    exact List.mem_map.mpr ⟨(n, f), dictGet_mem hd, rfl⟩

theorem funP_field {q : FunnelQuestion} (hq : q.lookup ⊆ funTable.map Prod.snd) {f : AnsField} (h : FunnelField funP q f) : f ∈ funTable.map Prod.snd := by
  rcases h with h | ⟨n, h⟩ | ⟨v, h⟩
  · exact hq h
  · exact funP_known h
  · simp only [funP] at h
    split_ifs at h
    cases h
    decide +kernel

theorem funP_ids {q : FunnelQuestion} (hq : q.lookup ⊆ funTable.map Prod.snd) (f g : AnsField) (hf : FunnelField funP q f) (hg : FunnelField funP q g) (e : f.fid = g.fid) : f = g := by
  have : ∀ f ∈ funTable.map Prod.snd, ∀ g ∈ funTable.map Prod.snd, f.fid = g.fid → f = g := by decide +kernel
  exact this f (funP_field hq hf) g (funP_field hq hg) e

theorem funP_labels : LabelsDiffer funP.toAnsProject := by
  intro n m f g hf hg hl
  have : ∀ f ∈ funTable.map Prod.snd, ∀ g ∈ funTable.map Prod.snd, f.label = g.label → f = g := by decide +kernel
  exact this f (funP_known hf) g (funP_known hg) hl

theorem funQ_proper (q : FunnelQuestion) (h : q.metrics = ["revenue"] ∧ q.dimensions = ["country"] ∧ q.having = [("orders", 6)] ∧ q.wheres = funQ.wheres)
    (hl : q.lookup ⊆ funTable.map Prod.snd) : FunnelProper funP q [funCountry] [funRevenue, funOrders] := by
  obtain ⟨h1, h2, h3, h4⟩ := h
  refine ⟨funP_labels, ?_, ?_, ?_, by simp [funCountry], by simp [funRevenue, funOrders], ?_, ?_, ?_⟩
  · intro v k hk
    simp only [funP] at hk
    split_ifs at hk
    cases hk
    exact ⟨⟨"id", by decide +kernel⟩, _, rfl⟩
  · rw [h2]; exact .cons (by decide +kernel) .nil
  · rw [h1, h3]; exact .cons (by decide +kernel) (.cons (by decide +kernel) .nil)
  · intro f hf k hk
    have : k = funKey := by
      simp only [funP] at hk
      split_ifs at hk
      cases hk
      rfl
    subst this
    show "events_id" = funKey.label
    decide +kernel
  · rw [h4]; exact ⟨trivial, trivial⟩
  · exact fun f g hf hg e => by rw [funP_ids hl f g hf hg e]

/-- (an example; it models no file in /repo) Rows are key, person, hour, kind, country and amount. Person 1 visits twice and buys in country 2; person 2 buys too late, and in time in
country 2. -/
def funDb : Db (Nat × Nat × Nat × Nat × Nat × Nat) where
  rows := fun _ => [(1, 1, 1, 0, 1, 1), (2, 1, 2, 0, 1, 2), (3, 1, 5, 1, 2, 10), (4, 2, 1, 0, 1, 4), (5, 2, 40, 1, 1, 7), (6, 2, 3, 1, 2, 5), (7, 3, 1, 2, 1, 1)]
  tables := fun vs => vs
  engine := ⟨fun r s => if s = "e.id" then some (r.1 : ℚ) else if s = "e.person" then some (r.2.1 : ℚ) else if s = "e.at" then some (r.2.2.1 : ℚ)
    else if s = "e.kind" then some (r.2.2.2.1 : ℚ) else if s = "e.country" then some (r.2.2.2.2.1 : ℚ) else if s = "e.amount" then some (r.2.2.2.2.2 : ℚ) else none,
    fun k => k.num * 1000000000⟩
  test := fun i v => match v with
    | none => .u
    | some x => if i = 0 then (if x = 0 then .t else .f) else if i = 1 then (if x = 1 then .t else .f) else if i = 5 then (if x < 2 then .t else .f)
      else if i = 6 then (if 1 ≤ x then .t else .f) else .t

/-- (an example; it models no file in /repo) Date differences in hours. -/
def funDiff : String → ℚ → ℚ → Option ℤ := fun _ a b => some (b - a).floor

/-- The hypotheses of C38 (answered and table) hold of the example. -/
example : ∃ s out, buildFunnel funP .snowflake (fun u => u == "hours") funQ = .ok s ∧ s.Answers funDb funDiff out ∧
    ∃ (views : List String) (events : List (Nat × Nat × Nat × Nat × Nat × Nat)) (date person : AnsField), FunnelViews funP funQ date person views ∧
      Behind (FunnelPasses funDb funP.toAnsProject .snowflake views funQ) (fun _ => []) (funDb.rows views) [] events ∧
        ∃ (tables : List (List (List Val))) (lines : List (Nat × List Val)), tables.length = 2 ∧
          (∀ n t, tables[n]? = some t → IsFunnelTable events (EndsChain (funnelEvents funDb funP.get funQ.fieldOf date person funDiff events) "hours" 24 funQ.steps (n + 1))
            (fun r => [funCountry].map (fun d => rawValueOf funDb.engine d r)) (LineMetrics funDb.engine funP [funRevenue, funOrders]) 2 t) ∧
          KeptLines (FunnelKept funDb funP.get funQ.having [funRevenue, funOrders, funCountry]) (stepLines tables) lines ∧ FunnelLimited none lines out := by
  obtain ⟨s, hs⟩ := ok_of_isOk (x := buildFunnel funP .snowflake (fun u => u == "hours") funQ) (by decide +kernel)
  have hl : funQ.lookup ⊆ funTable.map Prod.snd := by decide +kernel
  have hp := funQ_proper funQ ⟨rfl, rfl, rfl, rfl⟩ hl
  have hw : GoodWindow (fun u => u == "hours") funQ.window "hours" 24 := ⟨⟨"hour", rfl, by decide +kernel⟩, rfl, rfl⟩
  obtain ⟨out, ho⟩ := C38_answered funP .snowflake _ funQ s hs _ _ hp (funP_ids hl) "hours" 24 hw (by
    intro f hf k hk
    simp only [funP] at hk
    split_ifs at hk
    cases hk
    decide +kernel) (by decide +kernel) funDb funDiff
  obtain ⟨views, events, date, person, h1, -, -, h4, h5⟩ := C38_table_partial funP .snowflake _ funQ s hs _ _ hp (by simp) "hours" 24 hw rfl (.inr (by simp)) funDb funDiff out ho
  obtain ⟨tables, lines, h6, h7, h8, h9⟩ := h5 (by
    intro f hf m key hm hk
    have hkey : key = funKey := by
      simp only [funP] at hk
      split_ifs at hk
      cases hk
      rfl
    subst hkey
    obtain ⟨p, -, rfl⟩ := h4
    have hsub : ∀ r ∈ (funDb.rows views).filter p, r ∈ funDb.rows [] := fun r hr => (List.mem_filter.mp hr).1
    have hfa : ∀ r, rawValueOf funDb.engine f r = funDb.engine.value r "e.amount" := by
      simp only [List.mem_cons, List.not_mem_nil, or_false] at hf
      rcases hf with rfl | rfl <;> exact fun _ => rfl
    have hf' := funext hfa
    refine ⟨⟨?_, ?_⟩, ?_, ?_, ?_⟩
    · rw [hf']
      have : ∀ a ∈ funDb.rows [], ∀ b ∈ funDb.rows [], rawValueOf funDb.engine funKey a = rawValueOf funDb.engine funKey b → funDb.engine.value a "e.amount" = funDb.engine.value b "e.amount" := by
        decide +kernel
      exact fun a ha b hb => this a (hsub a ha) b (hsub b hb)
    · have : ∀ a ∈ funDb.rows [], rawValueOf funDb.engine funKey a ≠ none := by decide +kernel
      exact fun a ha h => absurd h (this a (hsub a ha))
    · rw [hf']
      have : ∀ a ∈ funDb.rows [], ∀ b ∈ funDb.rows [], (rawValueOf funDb.engine funKey a).getD 0 ≠ (rawValueOf funDb.engine funKey b).getD 0 →
          funDb.engine.hash ((rawValueOf funDb.engine funKey a).getD 0) ≠ funDb.engine.hash ((rawValueOf funDb.engine funKey b).getD 0) ∧
          ((funDb.engine.value a "e.amount").getD 0 * 1000000).floor + funDb.engine.hash ((rawValueOf funDb.engine funKey a).getD 0) ≠
            ((funDb.engine.value b "e.amount").getD 0 * 1000000).floor + funDb.engine.hash ((rawValueOf funDb.engine funKey b).getD 0) := by
        decide +kernel
      intro a ha b hb k l hk hl hkl
      have := this a (hsub a ha) b (hsub b hb)
      rw [hk, hl] at this
      exact this hkl
    · rw [hf']
      intro r hr x hx
      have : ∀ a ∈ funDb.rows [], funDb.engine.value a "e.amount" = some (a.2.2.2.2.2 : ℚ) := by decide +kernel
      dsimp only at hx
      rw [this r (hsub r hr)] at hx
      cases hx
      exact ⟨(r.2.2.2.2.2 : ℤ) * 1000000, by push_cast; rfl⟩
    · intro hpc
      simp only [List.mem_cons, List.not_mem_nil, or_false] at hf
      rcases hf with rfl | rfl <;> (cases hm; cases hpc))
  exact ⟨s, out, hs, ho, views, events, date, person, h1, h4, tables, lines, h6, h7, h8, h9⟩

/-- The hypotheses of C38 (key missing): with a filter on the key the query is built and never answered. -/
example : ∃ s, buildFunnel funP .snowflake (fun u => u == "hours") { funQ with lookup := [funRevenue, funCountry, funKey] } = .ok s ∧
    ∀ (D : Db Nat) (out : List (Nat × List Val)), ¬ s.Answers D funDiff out := by
  obtain ⟨s, hs⟩ := ok_of_isOk (x := buildFunnel funP .snowflake (fun u => u == "hours") { funQ with lookup := [funRevenue, funCountry, funKey] }) (by decide +kernel)
  have hl : [funRevenue, funCountry, funKey] ⊆ funTable.map Prod.snd := by decide +kernel
  refine ⟨s, hs, fun D out => C38_key_missing funP .snowflake _ _ s hs _ _ (funQ_proper _ ⟨rfl, rfl, rfl, rfl⟩ hl) rfl "revenue" (by simp [funQ]) funRevenue funKey _ (by decide +kernel) rfl rfl
    (by decide +kernel) (by decide +kernel) ?_ ?_ ?_ D funDiff out⟩
  · decide +kernel
  · intro n hn
    have h1 : eventDate funQ.viewName (funQ.metrics.map funQ.dateOf) = .ok "events.at_raw" := by decide +kernel
    have hn : eventDate funQ.viewName (funQ.metrics.map funQ.dateOf) = .ok n := hn
    rw [h1] at hn
    cases hn
    decide +kernel
  · intro n hn
    cases hn
    decide +kernel

/-- The hypotheses of C38 (having twice): a condition on the revenue that is also asked for. -/
example : ∃ s, buildFunnel funP .snowflake (fun u => u == "hours") { funQ with having := [("revenue", 6)] } = .ok s ∧
    ∀ (D : Db Nat) (out : List (Nat × List Val)), ¬ s.Answers D funDiff out := by
  obtain ⟨s, hs⟩ := ok_of_isOk (x := buildFunnel funP .snowflake (fun u => u == "hours") { funQ with having := [("revenue", 6)] }) (by decide +kernel)
  exact ⟨s, hs, fun D out => C38_having_twice funP .snowflake _ _ s hs "revenue" 6 (by simp [funQ]) (by simp) D funDiff out⟩

/-- (an example; it models no file in /repo) The project and the question without filters. -/
def funPlainP : FunnelProject := { funP with access := fun _ => [] }
/-- (an example; it models no file in /repo) The question without filters. -/
def funPlainQ : FunnelQuestion := { funQ with wheres := [], having := [], limit := none }

/-- (an example; it models no file in /repo) The answer of the statement, computed. -/
def funComputed (w : Warehouse) : Option (List (Nat × List Val)) :=
  match buildFunnel funPlainP w (fun u => u == "hours") funPlainQ with
  | .error _ => none
  | .ok s =>
    if (∀ c ∈ s.names, columnOf s.base.select c ≠ none) ∧ (∀ h ∈ s.having, columnOf s.columns h.1 ≠ none) ∧ s.base.whereText = none ∧ s.limit = none then
      match evalSteps (s.data funDb funDiff (funDb.rows s.base.views)) [] s.steps with
      | .error _ => none
      | .ok ctes => (s.union.mapM (s.branch funDb ctes)).map (fun ps => ps.flatten.filter (s.kept funDb))
    else none

theorem funComputed_answers {w : Warehouse} {out : List (Nat × List Val)} (h : funComputed w = some out) :
    ∃ s, buildFunnel funPlainP w (fun u => u == "hours") funPlainQ = .ok s ∧ s.Answers funDb funDiff out := by
  unfold funComputed at h
  cases hs : buildFunnel funPlainP w (fun u => u == "hours") funPlainQ with
  | error e => rw [hs] at h; cases h
  | ok s =>
    rw [hs] at h
    dsimp only at h
    split_ifs at h with hc
    obtain ⟨h1, h2, h3, h4⟩ := hc
    cases he : evalSteps (s.data funDb funDiff (funDb.rows s.base.views)) [] s.steps with
    | error e => rw [he] at h; cases h
    | ok ctes =>
      rw [he] at h
      dsimp only at h
      cases hm : s.union.mapM (s.branch funDb ctes) with
      | none => rw [hm] at h; cases h
      | some ps =>
        rw [hm] at h
        cases h
        refine ⟨s, rfl, h1, h2, _, ctes, ps, _, ?_, he, hm, List.Perm.refl _, ?_⟩
        · rw [h3]; rfl
        · rw [h4]

/-- C38: on a warehouse without symmetric aggregates an event counts once for each chain it ends: the purchase of 10 that follows two visits counts twice, so country 2 has revenue 25
in step 2. With symmetric aggregates it has 15. -/
theorem C38_plain_repeats :
    (∃ s, buildFunnel funPlainP .trino (fun u => u == "hours") funPlainQ = .ok s ∧ s.Answers funDb funDiff [(1, [some 7, some 1]), (2, [some 25, some 2])]) ∧
    ∃ s, buildFunnel funPlainP .snowflake (fun u => u == "hours") funPlainQ = .ok s ∧ s.Answers funDb funDiff [(1, [some 7, some 1]), (2, [some 15, some 2])] := by
  exact ⟨funComputed_answers (by decide +kernel), funComputed_answers (by decide +kernel)⟩

/-- The hypotheses of C38 (totals) hold of the question without dimensions. -/
example : ∃ s out, buildFunnel funP .snowflake (fun u => u == "hours") { funQ with dimensions := [] } = .ok s ∧ s.Answers funDb funDiff out ∧
    FunnelProper funP { funQ with dimensions := [] } [] [funRevenue, funOrders] := by
  obtain ⟨s, hs⟩ := ok_of_isOk (x := buildFunnel funP .snowflake (fun u => u == "hours") { funQ with dimensions := [] }) (by decide +kernel)
  have hl : funQ.lookup ⊆ funTable.map Prod.snd := by decide +kernel
  have h0 := funQ_proper funQ ⟨rfl, rfl, rfl, rfl⟩ hl
  have hp : FunnelProper funP { funQ with dimensions := [] } [] [funRevenue, funOrders] :=
    ⟨h0.labels, h0.keys, .nil, h0.metrics, by simp, h0.measure, h0.distinct, h0.wheres, h0.ids⟩
  obtain ⟨out, ho⟩ := C38_answered funP .snowflake _ _ s hs _ _ hp (funP_ids hl) "hours" 24 ⟨⟨"hour", rfl, by decide +kernel⟩, rfl, rfl⟩ (by
    intro f hf k hk
    simp only [funP] at hk
    split_ifs at hk
    cases hk
    show funKey ∉ funQ.lookup
    decide +kernel) (by decide +kernel) funDb funDiff
  exact ⟨s, out, hs, ho, hp⟩

/-- An ordering, or a metric of a view without key, is refused. -/
example : (match buildFunnel funP .snowflake (fun u => u == "hours") { funQ with hasOrder := true } with | .error e => some e | .ok _ => none) = some .argument ∧
    (match buildFunnel { funP with viewKey := fun _ => none } .snowflake (fun u => u == "hours") funQ with | .error e => some e | .ok _ => none) = some .attributeError := by
  constructor <;> decide +kernel

/-- The hypotheses of C38 (no customer) hold of the project without a tagged field. -/
example : buildFunnel { funP with link := .error .accessDenied } .snowflake (fun u => u == "hours") funQ = .error .query := by
  obtain ⟨d, hd⟩ := ok_of_isOk (x := eventDate funQ.viewName (funQ.metrics.map funQ.dateOf)) (by decide +kernel)
  have : ∀ d, eventDate funQ.viewName (funQ.metrics.map funQ.dateOf) = .ok d → (funP.get d).isOk = true := by
    intro d h
    injection h with h
    subst h
    decide +kernel
  obtain ⟨f, hf⟩ := ok_of_isOk (this d hd)
  exact C38_no_customer _ _ _ _ d hd f hf _ rfl

end ML
