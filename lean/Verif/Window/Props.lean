import Verif.Window.Lemmas
import Verif.Project.Lemmas
/-
C57: a non-additive metric counts only the rows at the latest (earliest) date of their window.
-/
set_option autoImplicit false
namespace ML
open Spec

section
variable {ρ : Type}

theorem onRow_eq {W : WinProject} {n : String} {f : AnsField} {s : String} (h : W.get n = .ok f) (hs : f.sql = .dimension s) (E : Engine ρ)
    (r : ρ) : onRow W E n r = E.value r s := by
  unfold onRow
  rw [h]
  obtain ⟨a, b, c, d⟩ := f
  simp only at hs
  subst hs
  rfl

theorem splits_group {W : WinProject} {q : Question} (hq : ∀ d ∈ q.dimensions, W.get (lower d) = W.get d) {d : WinDef} {n : String}
    (h : SplitsWindow W q d n) : ∃ n' ∈ winGroups W q d, W.get n' = W.get n ∧ (n ∈ d.groups → n' = n) := by
  unfold winGroups
  simp only [mem_firstSeen, List.mem_append]
  by_cases hg : n ∈ d.groups
  · exact ⟨n, .inl hg, rfl, fun _ => rfl⟩
  · rcases h with h | ⟨h1, h2⟩
    · exact absurd h hg
    · cases ha : d.aware with
      | true => exact ⟨lower n, .inr (by simp only [if_true]; exact List.mem_map.mpr ⟨n, h1, rfl⟩), hq n h1, fun h => absurd h hg⟩
      | false =>
        rw [ha] at h2
        exact ⟨n, .inr (by simp only [Bool.false_eq_true, if_false]; exact List.mem_filter.mpr ⟨h1, by simpa using h2⟩), rfl,
          fun h => absurd h hg⟩

theorem group_splits {W : WinProject} {q : Question} (hq : ∀ d ∈ q.dimensions, W.get (lower d) = W.get d) {d : WinDef} {n' : String}
    (h : n' ∈ winGroups W q d) : ∃ n, SplitsWindow W q d n ∧ W.get n' = W.get n ∧ (n' = n ∨ n' = lower n) := by
  unfold winGroups at h
  rw [mem_firstSeen, List.mem_append] at h
  rcases h with h | h
  · exact ⟨n', .inl h, rfl, .inl rfl⟩
  · cases ha : d.aware with
    | true =>
      rw [ha] at h
      simp only [if_true] at h
      obtain ⟨n, h1, rfl⟩ := List.mem_map.mp h
      exact ⟨n, .inr ⟨h1, .inl ha⟩, hq n h1, .inr rfl⟩
    | false =>
      rw [ha] at h
      simp only [Bool.false_eq_true, if_false] at h
      obtain ⟨h1, h2⟩ := List.mem_filter.mp h
      exact ⟨n', .inr ⟨h1, .inr h2⟩, rfl, .inl rfl⟩

theorem group_pair {W : WinProject} {ns : List String} {gs : List AnsField} {on : List (String × String)} (hg : Names W.project ns gs)
    (hon : List.Forall₂ (fun f p => f.sql = .dimension p.1 ∧ p.2 = f.label) gs on) (E : Engine ρ) :
    (∀ n ∈ ns, ∃ p ∈ on, ∀ r, onRow W E n r = E.value r p.1) ∧ ∀ p ∈ on, ∃ n ∈ ns, ∀ r, onRow W E n r = E.value r p.1 := by
  unfold Names at hg
  induction hg generalizing on with
  | nil => cases hon; simp
  | cons h1 h2 ih =>
    cases hon with
    | cons h3 h4 =>
      obtain ⟨i1, i2⟩ := ih h4
      have e := fun r => onRow_eq (ρ := ρ) h1 h3.1 E r
      constructor
      · intro n hn
        rcases List.mem_cons.mp hn with rfl | hn
        · exact ⟨_, by simp, e⟩
        · obtain ⟨p, hp, h⟩ := i1 n hn
          exact ⟨p, List.mem_cons_of_mem _ hp, h⟩
      · intro p hp
        rcases List.mem_cons.mp hp with rfl | hp
        · exact ⟨_, by simp, e⟩
        · obtain ⟨n, hn, h⟩ := i2 p hp
          exact ⟨n, List.mem_cons_of_mem _ hn, h⟩

theorem sameWindow_iff {W : WinProject} {q : Question} (hq : ∀ d ∈ q.dimensions, W.get (lower d) = W.get d) {d : WinDef}
    {gs : List AnsField} {on : List (String × String)} (hg : Names W.project (winGroups W q d) gs)
    (hon : List.Forall₂ (fun f p => f.sql = .dimension p.1 ∧ p.2 = f.label) gs on) (E : Engine ρ) (r x : ρ) :
    SameWindow W E q d r x ↔ (∀ p ∈ on, E.value x p.1 = E.value r p.1) ∧ (d.nullsEqual = false → ∀ p ∈ on, E.value r p.1 ≠ none) := by
  obtain ⟨g1, g2⟩ := group_pair hg hon E
  have hcongr : ∀ {n n' : String}, W.get n' = W.get n → ∀ r, onRow W E n' r = onRow W E n r := by
    intro n n' h r
    unfold onRow
    rw [h]
  constructor
  · intro h
    have : ∀ p ∈ on, E.value x p.1 = E.value r p.1 ∧ (d.nullsEqual = false → E.value r p.1 ≠ none) := by
      intro p hp
      obtain ⟨n', hn', h1⟩ := g2 p hp
      obtain ⟨n, h2, h3, -⟩ := group_splits hq hn'
      rw [← h1 x, ← h1 r, hcongr h3, hcongr h3]
      exact ⟨(h n h2).1.symm, (h n h2).2⟩
    exact ⟨fun p hp => (this p hp).1, fun hne p hp => (this p hp).2 hne⟩
  · rintro ⟨h1, h2⟩ n hn
    obtain ⟨n', hn', h3, -⟩ := splits_group hq hn
    obtain ⟨p, hp, h4⟩ := g1 n' hn'
    rw [← hcongr h3, ← hcongr h3, h4, h4]
    exact ⟨(h1 p hp).symm, fun hne => h2 hne p hp⟩

theorem windowViews_ok {W : WinProject} {q : Question} (hq : ∀ d ∈ q.dimensions, W.get (lower d) = W.get d) {d : WinDef}
    {gs ws : List AnsField} {date : AnsField} (hg : Names W.project (winGroups W q d) gs) (hd : W.get d.name = .ok date)
    (hw : Names W.project q.whereNames ws) : WindowViews W q d (winViews gs date ws) := by
  refine ⟨List.nodup_dedup _, fun v => ?_⟩
  unfold winViews
  rw [List.mem_dedup, List.mem_map]
  constructor
  · rintro ⟨f, hf, rfl⟩
    rcases List.mem_append.mp hf with hf | hf
    · obtain ⟨n', h1, h2⟩ := mem_names hg hf
      obtain ⟨n, h3, h4, -⟩ := group_splits hq h1
      exact ⟨n, f, .inl h3, h4 ▸ h2, rfl⟩
    · rcases List.mem_cons.mp hf with rfl | hf
      · exact ⟨_, _, .inr (.inl rfl), hd, rfl⟩
      · obtain ⟨n, h1, h2⟩ := mem_names hw hf
        exact ⟨n, f, .inr (.inr h1), h2, rfl⟩
  · rintro ⟨n, f, h, hf, rfl⟩
    rcases h with h | rfl | h
    · obtain ⟨n', h1, h2, -⟩ := splits_group hq h
      obtain ⟨f', h3, h4⟩ := names_mem hg h1
      have h4 : W.get n' = .ok f' := h4
      rw [h2, hf] at h4
      cases h4
      exact ⟨f, by simp [h3], rfl⟩
    · rw [hd] at hf
      cases hf
      exact ⟨_, by simp, rfl⟩
    · obtain ⟨f', h3, h4⟩ := names_mem hw h
      have h4 : W.get n = .ok f' := h4
      rw [hf] at h4
      cases h4
      exact ⟨f, by simp [h3], rfl⟩

theorem lower_append (a b : String) : lower (a ++ b) = lower a ++ lower b := by
  unfold lower
  rw [← String.ofList_append, ← List.map_append, String.toList_append]

/-- The columns of a metric's subquery that its CASE expression refers to. -/
theorem ref_columns {W : WinProject} {q : Question} (hq : ProperWindows W q) {n : String} (hn : n ∈ winNames q) {m : WinMeasure}
    (hm : W.win n = some m) {gs : List AnsField} {date : AnsField} {sql : String} {j : WinJoin}
    (hgs : Names W.project (winGroups W q m.win) gs) (hd : W.get m.win.name = .ok date) (hname : j.name = m.cteAlias)
    (hlab : List.Forall₂ (fun f (c : SqlExpr × String) => c.2 = f.label) (gs ++ [tempField m.win date.view sql]) j.cte.select) :
    j.columns[gs.length]? = some (lower m.dateRef) ∧
    ∀ g ∈ m.win.groups, ∃ (i : Nat) (f : AnsField), gs[i]? = some f ∧ W.get g = .ok f ∧ j.columns[i]? = some (lower (m.groupRef g)) := by
  obtain ⟨h1, h2⟩ := List.forall₂_iff_get.mp hlab
  have hcol : ∀ i (h : i < (gs ++ [tempField m.win date.view sql]).length),
      j.columns[i]? = some (lower (m.cteAlias ++ "." ++ ((gs ++ [tempField m.win date.view sql])[i]).label)) := by
    intro i h
    have h' : i < j.cte.select.length := by omega
    unfold WinJoin.columns
    rw [List.getElem?_map, List.getElem?_eq_getElem h']
    have := h2 i h h'
    simp only [List.get_eq_getElem] at this
    rw [Option.map_some, this, hname]
  constructor
  · rw [hcol gs.length (by simp)]
    congr 1
    rw [List.getElem_append_right (le_refl _)]
    simp only [Nat.sub_self, List.getElem_cons_zero]
    have hv := hq.sameView n hn m hm date hd
    unfold WinMeasure.dateRef WinMeasure.column tempField AnsField.label WinDef.temp
    simp only [lower_append, lower_lower, hv]
    simp only [String.append_assoc]
  · intro g hg
    obtain ⟨g', h3, h4, h5⟩ := splits_group hq.caseless (.inl hg : SplitsWindow W q m.win g)
    rw [h5 hg] at h3
    obtain ⟨i, hi, hgi⟩ := List.mem_iff_getElem.mp h3
    have hl := hgs.length_eq
    obtain ⟨-, h6⟩ := List.forall₂_iff_get.mp hgs
    have h7 : W.get g = .ok gs[i] := by
      have := h6 i hi (by omega)
      simp only [List.get_eq_getElem, hgi] at this
      exact this
    refine ⟨i, gs[i], List.getElem?_eq_getElem (by omega), h7, ?_⟩
    rw [hcol i (by rw [List.length_append]; omega)]
    congr 1
    rw [List.getElem_append_left (by omega)]
    unfold WinMeasure.groupRef
    rw [lower_append _ (AnsField.label _), lower_append _ (dotted g), hq.groupings n hn m hm g hg _ h7]

/-- The cell of a window's date. -/
theorem date_cell {W : WinProject} {q : Question} (hq : ∀ d ∈ q.dimensions, W.get (lower d) = W.get d) {w : Warehouse} {d : WinDef}
    {gs : List AnsField} {j : WinJoin} (hg : Names W.project (winGroups W q d) gs)
    (hon : List.Forall₂ (fun f p => f.sql = .dimension p.1 ∧ p.2 = f.label) gs j.on) (hne : j.nullsEqual = d.nullsEqual) {date : AnsField}
    {sql : String} (hd : W.get d.name = .ok date) (hs : date.sql = .dimension sql) {D : Db ρ} {views : List String} {fpk : FunctionalPk}
    {ls : List (List Val)}
    (hf : CteFacts D j (PassesWhere D W.project w views q) (D.rows views) (valueOf D.engine w fpk (tempField d date.view sql)) ls) (r : ρ) (t : ℚ) :
    (ls.find? (j.matching D.engine r)).bind (fun l => (l[gs.length]?).join) = some t ↔ IsExtreme d.choice (WindowTimes D W w q d views r) t := by
  cases hl : ls.find? (j.matching D.engine r) with
  | none =>
    have hno : ∀ u, ¬ WindowTimes D W w q d views r u := by
      rintro u ⟨x, hx, hp, hsw, -⟩
      obtain ⟨h1, h2⟩ := (sameWindow_iff hq hg hon D.engine r x).mp hsw
      obtain ⟨l, hlm, hm⟩ := hf.found r x hx hp h1 (by rw [hne]; exact h2)
      exact List.find?_eq_none.mp hl l hlm hm
    constructor
    · intro h; cases h
    · intro h
      cases hc : d.choice <;> rw [hc] at h <;> exact absurd h.1 (hno t)
  | some l =>
    obtain ⟨h1, G, h2, rfl⟩ := hf.line r l (List.mem_of_find?_eq_some hl) (List.find?_some hl)
    have hlen : gs.length = (j.on.map (fun p => D.engine.value r p.1)).length := by rw [List.length_map]; exact hon.length_eq
    simp only [Option.bind_some]
    rw [hlen, List.getElem?_append_right (le_refl _), Nat.sub_self]
    simp only [List.getElem?_cons_zero, Option.join_some]
    rw [temp_value]
    have hpred : (fun u => ∃ x ∈ G, D.engine.value x sql = some u) = WindowTimes D W w q d views r := by
      funext u
      refine propext ⟨?_, ?_⟩
      · rintro ⟨x, hx, hu⟩
        obtain ⟨h3, h4, h5⟩ := (h2 x).mp hx
        refine ⟨x, h3, h4, (sameWindow_iff hq hg hon D.engine r x).mpr ⟨h5, by rw [← hne]; exact h1⟩, ?_⟩
        rw [onRow_eq hd hs]
        exact hu
      · rintro ⟨x, hx, hp, hsw, hu⟩
        obtain ⟨h5, -⟩ := (sameWindow_iff hq hg hon D.engine r x).mp hsw
        rw [onRow_eq hd hs] at hu
        exact ⟨x, (h2 x).mpr ⟨hx, hp, h5⟩, hu⟩
    rw [hpred]

theorem sqlEqual_true (x y : Val) : sqlEqual x y = some true ↔ x = y ∧ x ≠ none := by
  cases x <;> cases y <;> simp [sqlEqual]

theorem winTruth_ref {W : WinProject} {n : String} {f : AnsField} {s : String} (h : W.get n = .ok f) (hs : f.sql = .dimension s) (E : Engine ρ)
    (truth : ρ → String → Comparison → Option Bool) (x : WRow ρ) (ref : String) (e : Expression) :
    winTruth W E truth x n ⟨e, .literal ref.toList⟩ = sqlEqual (E.value x.1 s) (cellOf x.2 ref) := by
  unfold winTruth
  simp only
  rw [h]
  simp only [Except.bind, dimText_ok.mpr hs, String.ofList_toList]

theorem literal_matches {num : ToNumeric} {now : DateTime} {ref : String} {week : Option String}
    (hok : ∃ ds, (filterDict num now week (.literal ref.toList) defaultWeek).1 = .ok ds) :
    (filterDict num now week (.literal ref.toList) defaultWeek).1 = .ok [⟨.equalTo, .literal ref.toList⟩] := by
  obtain ⟨-, -, -, -, h1, h2⟩ := C23_values num now week defaultWeek
  cases hc : containsSub " until ".toList ref.toList with
  | false => exact h1 _ hc
  | true =>
    obtain ⟨ds, hds⟩ := hok
    rw [h2 _ hc] at hds
    cases hds

/-- The conditions of a metric's CASE expression hold on a joined row exactly when the row counts. -/
theorem counts_iff {W : WinProject} {q : Question} (hq : ProperWindows W q) {w : Warehouse} {n : String} (hn : n ∈ winNames q) {m : WinMeasure}
    (hm : W.win n = some m) {c : CaseSql} (hc : m.case W.num W.now = .ok c) {gs : List AnsField} {j : WinJoin}
    (hg : Names W.project (winGroups W q m.win) gs) (hon : List.Forall₂ (fun f p => f.sql = .dimension p.1 ∧ p.2 = f.label) gs j.on)
    (hne : j.nullsEqual = m.win.nullsEqual) {date : AnsField} {sql : String} (hd : W.get m.win.name = .ok date) (hs : date.sql = .dimension sql)
    (hname : j.name = m.cteAlias)
    (hlab : List.Forall₂ (fun f (c : SqlExpr × String) => c.2 = f.label) (gs ++ [tempField m.win date.view sql]) j.cte.select)
    {D : Db ρ} {views : List String} {fpk : FunctionalPk} {ls : List (List Val)}
    (hf : CteFacts D j (PassesWhere D W.project w views q) (D.rows views) (valueOf D.engine w fpk (tempField m.win date.view sql)) ls)
    {jl : List (WinJoin × List (List Val))} (hj : (j, ls) ∈ jl)
    (href : ∀ ref, (ref = m.dateRef ∨ ∃ g ∈ m.win.groups, ref = m.groupRef g) → (jl.flatMap (fun p => p.1.columns)).count (lower ref) = 1)
    (truth : ρ → String → Comparison → Option Bool) (r : ρ) :
    RowMatches W.num W.now (winTruth W D.engine truth) m.allFilters (r, allCells D.engine jl r) ↔ Counts D W w q truth m views r := by
  obtain ⟨c1, c2⟩ := ref_columns hq hn hm hg hd hname hlab
  have hconds : ∃ cs, filterConditions W.num W.now m.allFilters = .ok cs := by
    unfold WinMeasure.case at hc
    split at hc
    · cases hc
    · unfold translateFilters at hc
      cases h : filterConditions W.num W.now m.allFilters with
      | error e => rw [h] at hc; cases hc
      | ok cs => exact ⟨cs, rfl⟩
  obtain ⟨cs, hcs⟩ := hconds
  have hall := conditions_ok hcs
  have hdate := cell_value (E := D.engine) (href _ (.inl rfl)) hj c1 r
  have hdc := date_cell hq.caseless hg hon hne hd hs hf r
  -- the conditions on the subquery
  have hD : (∀ f ∈ [(⟨some m.win.name, some (.literal m.dateRef.toList), none⟩ : MeasureFilter)], ∀ field v cs, f.field = some field →
      f.value = some v → (filterDict W.num W.now f.week v defaultWeek).1 = .ok cs → ∀ c ∈ cs,
        winTruth W D.engine truth (r, allCells D.engine jl r) field c = some true) ↔
      ∃ t, onRow W D.engine m.win.name r = some t ∧ IsExtreme m.win.choice (WindowTimes D W w q m.win views r) t := by
    have hlit := literal_matches (hall ⟨some m.win.name, some (.literal m.dateRef.toList), none⟩
      (by unfold WinMeasure.allFilters; simp) _ _ rfl rfl)
    have key : winTruth W D.engine truth (r, allCells D.engine jl r) m.win.name ⟨.equalTo, .literal m.dateRef.toList⟩ = some true ↔
        ∃ t, onRow W D.engine m.win.name r = some t ∧ IsExtreme m.win.choice (WindowTimes D W w q m.win views r) t := by
      rw [winTruth_ref hd hs, sqlEqual_true, hdate, onRow_eq hd hs]
      simp only [← hdc]
      constructor
      · rintro ⟨h1, h2⟩
        obtain ⟨t, ht⟩ := Option.ne_none_iff_exists'.mp h2
        exact ⟨t, ht, by rw [← h1, ht]⟩
      · rintro ⟨t, h1, h2⟩
        exact ⟨by rw [h1, h2], by rw [h1]; simp⟩
    rw [← key]
    constructor
    · intro h
      exact h _ (by simp) _ _ _ rfl rfl hlit _ (by simp)
    · intro h f hfm field v cs h1 h2 h3 c hcm
      rw [List.mem_singleton] at hfm
      subst hfm
      cases h1
      cases h2
      simp only at h3
      rw [hlit] at h3
      cases h3
      rw [List.mem_singleton] at hcm
      subst hcm
      exact h
  have hG : (∃ t, onRow W D.engine m.win.name r = some t ∧ IsExtreme m.win.choice (WindowTimes D W w q m.win views r) t) →
      ((∀ f ∈ m.win.groups.map (fun g => (⟨some g, some (.literal (m.groupRef g).toList), none⟩ : MeasureFilter)), ∀ field v cs,
        f.field = some field → f.value = some v → (filterDict W.num W.now f.week v defaultWeek).1 = .ok cs → ∀ c ∈ cs,
        winTruth W D.engine truth (r, allCells D.engine jl r) field c = some true) ↔ ∀ g ∈ m.win.groups, onRow W D.engine g r ≠ none) := by
    rintro ⟨t, ht, hex⟩
    have hfound := (hdc t).mpr hex
    obtain ⟨l, hl, hlt⟩ := Option.bind_eq_some_iff.mp hfound
    obtain ⟨-, G, -, hleq⟩ := hf.line r l (List.mem_of_find?_eq_some hl) (List.find?_some hl)
    have key : ∀ g ∈ m.win.groups, (filterDict W.num W.now none (.literal (m.groupRef g).toList) defaultWeek).1 =
        .ok [⟨.equalTo, .literal (m.groupRef g).toList⟩] ∧
        (winTruth W D.engine truth (r, allCells D.engine jl r) g ⟨.equalTo, .literal (m.groupRef g).toList⟩ = some true ↔
          onRow W D.engine g r ≠ none) := by
      intro g hgm
      refine ⟨literal_matches (hall ⟨some g, some (.literal (m.groupRef g).toList), none⟩ ?_ _ _ rfl rfl), ?_⟩
      · unfold WinMeasure.allFilters
        exact List.mem_append_right _ (List.mem_cons_of_mem _ (List.mem_map.mpr ⟨g, hgm, rfl⟩))
      · obtain ⟨i, f, hi, hfg, hcol⟩ := c2 g hgm
        obtain ⟨hlen, hon'⟩ := List.forall₂_iff_get.mp hon
        obtain ⟨hi1, hi2⟩ := List.getElem?_eq_some_iff.mp hi
        have hp := (hon' i hi1 (by omega)).1
        simp only [List.get_eq_getElem, hi2] at hp
        have hcell := cell_value (E := D.engine) (href _ (.inr ⟨g, hgm, rfl⟩)) hj hcol r
        have hv : cellOf (allCells D.engine jl r) (m.groupRef g) = onRow W D.engine g r := by
          rw [hcell, hl, onRow_eq hfg hp]
          simp only [Option.bind_some, hleq]
          rw [List.getElem?_append_left (by rw [List.length_map]; omega), List.getElem?_map, List.getElem?_eq_getElem (by omega)]
          rfl
        rw [winTruth_ref hfg hp, sqlEqual_true, hv, ← onRow_eq hfg hp D.engine r]
        simp
    constructor
    · intro h g hgm
      obtain ⟨h1, h2⟩ := key g hgm
      exact h2.mp (h _ (List.mem_map.mpr ⟨g, hgm, rfl⟩) _ _ _ rfl rfl h1 _ (by simp))
    · intro h f hfm field v cs h1 h2 h3 c hcm
      obtain ⟨g, hgm, rfl⟩ := List.mem_map.mp hfm
      injection h1 with h1
      injection h2 with h2
      subst h1 h2
      obtain ⟨h4, h5⟩ := key g hgm
      simp only at h3
      rw [h4] at h3
      cases h3
      rw [List.mem_singleton] at hcm
      subst hcm
      exact h5.mpr (h g hgm)
  have hO : RowMatches W.num W.now (winTruth W D.engine truth) (m.filters.filter (fun f => f.field ≠ some m.name)) (r, allCells D.engine jl r) ↔
      RowMatches W.num W.now truth (m.filters.filter (fun f => f.field ≠ some m.name)) r := by
    have : ∀ f ∈ m.filters.filter (fun f => f.field ≠ some m.name), ∀ v cs, f.value = some v →
        (filterDict W.num W.now f.week v defaultWeek).1 = .ok cs → ∀ c ∈ cs, ∀ field,
        winTruth W D.engine truth (r, allCells D.engine jl r) field c = truth r field c := by
      intro f hfm v cs h1 h2 c hcm field
      have := filterDict_plain h2 (fun s hs' => hq.filters n hn m hm f (List.mem_of_mem_filter hfm) s (by rw [h1, hs'])) c hcm
      unfold winTruth
      split
      · rename_i s hs'
        exact absurd hs' (this s)
      · rfl
    unfold RowMatches
    constructor
    · intro h f hfm field v cs h1 h2 h3 c hcm
      rw [← this f hfm v cs h2 h3 c hcm field]
      exact h f hfm field v cs h1 h2 h3 c hcm
    · intro h f hfm field v cs h1 h2 h3 c hcm
      rw [this f hfm v cs h2 h3 c hcm field]
      exact h f hfm field v cs h1 h2 h3 c hcm
  unfold Counts
  rw [← hO]
  constructor
  · intro h
    have h1 := hD.mp (fun f hfm => h f (by
      rw [List.mem_singleton] at hfm; subst hfm; unfold WinMeasure.allFilters; simp))
    refine ⟨h1, (hG h1).mp (fun f hfm => h f (by
      unfold WinMeasure.allFilters; exact List.mem_append_right _ (List.mem_cons_of_mem _ hfm))), ?_⟩
    exact fun f hfm => h f (by unfold WinMeasure.allFilters; exact List.mem_append_left _ hfm)
  · rintro ⟨h1, h2, h3⟩ f hfm
    unfold WinMeasure.allFilters at hfm
    rcases List.mem_append.mp hfm with hfm | hfm
    · exact h3 f hfm
    · rcases List.mem_cons.mp hfm with rfl | hfm
      · exact hD.mpr h1 _ (by simp)
      · exact (hG h1).mpr h2 f hfm

theorem buildWinStmt_ok {W : WinProject} {w : Warehouse} {q : Question} {s : WinStmt} (h : buildWinStmt W w q = .ok s) :
    ∃ views, QueryViews W.project q views ∧ buildBlock W.project w views q = .ok s.block ∧ s.block.views = views ∧
      List.Forall₂ (fun m j => buildWinJoin W w q m = .ok j)
        ((winEntries W [] (winNames q)).insertionSort (fun a b => a.column ≤ b.column)) s.joins ∧
      s.refs = (winMeasures W (winNames q)).flatMap (fun m => m.dateRef :: m.win.groups.map m.groupRef) ∧
      s.fields = (winMeasures W (winNames q)).flatMap (fun m => m.win.name :: m.win.groups) := by
  unfold buildWinStmt at h
  cases hv : lookupViews W.project q with
  | error e => rw [hv] at h; cases h
  | ok views =>
    rw [hv] at h
    simp only at h
    cases hb : buildBlock W.project w views q with
    | error e => rw [hb] at h; cases h
    | ok b =>
      rw [hb] at h
      simp only at h
      cases hj : buildWinJoins W w q ((winEntries W [] (winNames q)).insertionSort (fun a b => a.column ≤ b.column)) with
      | error e => rw [hj] at h; cases h
      | ok js =>
        rw [hj] at h
        cases h
        refine ⟨views, ?_, hb, ?_, buildWinJoins_ok hj, rfl, rfl⟩
        · unfold lookupViews at hv
          split at hv
          · cases hv
          · rename_i fs hf
            cases hv
            exact ⟨fs, getAll_names.mp hf, List.nodup_dedup _, fun v => by simp⟩
        · obtain ⟨c, fs, -, -, -, -, h2, -⟩ := buildBlock_ok hb
          exact h2

/-- What an answered statement shows: every row occurs once, and the metrics are shown on the rows that count. -/
theorem stmt_counted {W : WinProject} {w : Warehouse} {q : Question} {s : WinStmt} (hs : buildWinStmt W w q = .ok s) (hq : ProperWindows W q)
    (hwf : WellFormedFilters q.wheres) (D : Db ρ) (truth : ρ → String → Comparison → Option Bool) (E' : Engine (WRow ρ))
    (hE : ReadsCases W D.engine truth E') {out : List (List Val)} (ha : s.Answers W D E' out) :
    ∃ views, ∃ g : ρ → WRow ρ, QueryViews W.project q views ∧ buildBlock W.project w views q = .ok s.block ∧
      ShowsCounted D W w q truth (E'.comap g) ∧
      s.block.Answers ⟨fun vs => (D.rows vs).map (fun r => (r, [])), D.tables, E', D.test⟩ ((D.rows views).map g) out := by
  obtain ⟨views, hv, hb, hbv, hj, hrefs, -⟩ := buildWinStmt_ok hs
  obtain ⟨tables, ht, hcol, -, href, ha⟩ := ha
  set jl := s.joins.zip tables with hjl
  have hlen : s.joins.length = tables.length := ht.length_eq
  have hcols : jl.flatMap (fun p => p.1.columns) = s.joins.flatMap WinJoin.columns := by
    have : s.joins.flatMap WinJoin.columns = (jl.map Prod.fst).flatMap WinJoin.columns := by
      rw [hjl, List.map_fst_zip (by omega)]
    rw [this, List.flatMap_map]
  -- each joined subquery belongs to a metric of the query
  have hent : ∀ m ∈ (winEntries W [] (winNames q)).insertionSort (fun a b => a.column ≤ b.column), ∃ n ∈ winNames q, W.win n = some m :=
    fun m hm => winEntries_from ((List.perm_insertionSort _ _).mem_iff.mp hm)
  have hfacts : ∀ p ∈ jl, ∀ m, (∃ n ∈ winNames q, W.win n = some m) → buildWinJoin W w q m = .ok p.1 →
      ∃ gs date sql cviews, Names W.project (winGroups W q m.win) gs ∧ W.get m.win.name = .ok date ∧ date.sql = .dimension sql ∧
        WindowViews W q m.win cviews ∧
        List.Forall₂ (fun f p => f.sql = .dimension p.1 ∧ p.2 = f.label) gs p.1.on ∧ p.1.name = m.cteAlias ∧ p.1.nullsEqual = m.win.nullsEqual ∧
        CteFacts D p.1 (PassesWhere D W.project w cviews q) (D.rows cviews)
          (valueOf D.engine w (W.base.fpk cviews) (tempField m.win date.view sql)) p.2 ∧
        List.Forall₂ (fun f (c : SqlExpr × String) => c.2 = f.label) (gs ++ [tempField m.win date.view sql]) p.1.cte.select := by
    rintro p hp m ⟨n, hn, hm⟩ hbm
    obtain ⟨gs, date, sql, ws, h1, h2, h3, h4, h5, h6, h7, h8⟩ := buildWinJoin_ok hbm
    obtain ⟨u1, u2⟩ := hq.unused n hn m hm
    have hview := hq.sameView n hn m hm date h2
    have hpin := (List.of_mem_zip (show (p.1, p.2) ∈ s.joins.zip tables from hp)).1
    have hans : p.1.cte.Answers D (D.rows p.1.cte.views) p.2 := by
      obtain ⟨-, hall⟩ := List.forall₂_iff_get.mp ht
      obtain ⟨i, hi, hpi⟩ := List.mem_iff_getElem.mp hp
      rw [hjl, List.length_zip] at hi
      have := hall i (by omega) (by omega)
      simp only [List.get_eq_getElem] at this
      rw [← hpi]
      simp only [hjl, List.getElem_zip]
      exact this
    have hcv : p.1.cte.views = winViews gs date ws := by
      obtain ⟨c, fs, -, -, -, -, h, -⟩ := buildBlock_ok h5
      exact h
    rw [hcv] at hans
    have hgne : date.view ++ "." ++ m.win.temp ∉ winGroups W q m.win := by
      intro hmem
      obtain ⟨g, hg1, -, hg2⟩ := group_splits hq.caseless hmem
      rw [hview] at hg2
      rcases hg2 with hg2 | hg2
      · exact (u2 g hg1).2 hg2.symm
      · exact (u2 g hg1).1 hg2.symm
    obtain ⟨f1, f2⟩ := cte_facts h1 h5 h6 (hcol p.1 hpin) hwf (by rw [hview]; exact u1) hgne D hans
    exact ⟨gs, date, sql, winViews gs date ws, h1, h2, h3, windowViews_ok hq.caseless h1 h2 h4, h6, h7, h8, f1, f2⟩
  have hmeasure : ∀ p ∈ jl, ∃ m, (∃ n ∈ winNames q, W.win n = some m) ∧ buildWinJoin W w q m = .ok p.1 := by
    intro p hp
    have hpin := (List.of_mem_zip (show (p.1, p.2) ∈ s.joins.zip tables from hp)).1
    obtain ⟨i, hi, hpi⟩ := List.mem_iff_getElem.mp hpin
    obtain ⟨hl, hall⟩ := List.forall₂_iff_get.mp hj
    have := hall i (by omega) hi
    simp only [List.get_eq_getElem, hpi] at this
    exact ⟨_, hent _ (List.getElem_mem _), this⟩
  have hone : ∀ p ∈ jl, ∀ r, (p.2.filter (p.1.matching D.engine r)).length ≤ 1 := by
    intro p hp
    obtain ⟨m, h1, h2⟩ := hmeasure p hp
    obtain ⟨gs, date, sql, cviews, -, -, -, -, -, -, -, hf, -⟩ := hfacts p hp m h1 h2
    exact hf.one
  refine ⟨views, fun r => (r, allCells D.engine jl r), hv, hb, ?_, ?_⟩
  · refine ⟨?_, fun t ht r => hE.plain t ht _, hE.hash⟩
    intro n hn m c hm hc
    have hn : n ∈ winNames q := hn
    have hjoin : ∃ p ∈ jl, buildWinJoin W w q m = .ok p.1 := by
      rcases winEntries_has (seen := []) hn hm with h | ⟨m', h1, h2⟩
      · cases h
      · obtain ⟨n', hn', hm'⟩ := winEntries_from h1
        have := hq.ownName n' hn' n hn m' m hm' hm h2
        subst this
        have h1 := (List.perm_insertionSort (fun a b : WinMeasure => a.column ≤ b.column) _).mem_iff.mpr h1
        obtain ⟨i, hi, hpi⟩ := List.mem_iff_getElem.mp h1
        obtain ⟨hl, hall⟩ := List.forall₂_iff_get.mp hj
        have := hall i hi (by omega)
        simp only [List.get_eq_getElem, hpi] at this
        refine ⟨(s.joins[i], tables[i]), ?_, this⟩
        rw [hjl, List.mem_iff_getElem]
        exact ⟨i, by rw [List.length_zip]; omega, List.getElem_zip⟩
    obtain ⟨p, hp, hbm⟩ := hjoin
    obtain ⟨gs, date, sql, cviews, h1, h2, h3, h4, h5, h6, h7, h8, h9⟩ := hfacts p hp m ⟨n, hn, hm⟩ hbm
    refine ⟨cviews, h4, fun r => ?_⟩
    have hiff := counts_iff hq hn hm hc h1 h5 h7 h2 h3 h6 h9 h8 (jl := jl) hp (fun ref hr => by
      rw [hcols]
      refine href ref ?_
      rw [hrefs]
      refine List.mem_flatMap.mpr ⟨m, List.mem_filterMap.mpr ⟨n, hn, hm⟩, ?_⟩
      rcases hr with rfl | ⟨g, hg, rfl⟩
      · simp
      · exact List.mem_cons_of_mem _ (List.mem_map.mpr ⟨g, hg, rfl⟩)) truth r
    have hcase : (E'.comap (fun r => (r, allCells D.engine jl r))).value r (W.render c) =
        c.eval (winTruth W D.engine truth) (fun y t => D.engine.value y.1 t) (r, allCells D.engine jl r) := hE.case n m c hm hc _
    have htr : translateFilters W.num W.now m.measure.sql m.allFilters m.elseZero = .ok c := by
      unfold WinMeasure.case at hc
      split at hc
      · cases hc
      · exact hc
    obtain ⟨e1, e2⟩ := eval_case W.num W.now (winTruth W D.engine truth) (fun (y : WRow ρ) t => D.engine.value y.1 t) m.allFilters
      m.measure.sql m.elseZero c htr (r, allCells D.engine jl r)
    rw [hcase, ← hiff]
    refine ⟨e1, fun h => ?_⟩
    rw [e2 h]
    unfold WinMeasure.elseZero
    by_cases h1 : m.measure.type = .count
    · simp [h1]
    · by_cases h2 : m.measure.type = .countDistinct
      · simp [h2]
      · simp [h1, h2]
  · have := extendAll_one (E := D.engine) hone (D.rows s.block.views) (fun _ => [])
    rw [this, hbv] at ha
    simpa using ha

/-- C57 (a): a query with non-additive metrics and dimensions is answered by the table asked for (C55), in which every row is taken once and a
metric is computed from its value on the rows that count; on the others it is NULL for counts and zero for all other types. -/
theorem C57_table (W : WinProject) (w : Warehouse) (q : Question) (s : WinStmt) (hs : buildWinStmt W w q = .ok s) (hq : ProperWindows W q)
    (ds ms : List AnsField) (hp : Proper W.project q ds ms) (hg : GroupsRows q ds ms) (hne : ds ≠ []) (hl : LabelsDiffer W.project)
    (ht : ∀ t, q.order ≠ .text t) (hn : ∀ o ∈ askedOrder w q, o.1 ≠ "__DEFAULT__")
    (hz : q.limit ≠ some 0 ∨ w ≠ .sqlServer ∧ w ≠ .azureSynapse) (D : Db ρ) (truth : ρ → String → Comparison → Option Bool)
    (E' : Engine (WRow ρ)) (hE : ReadsCases W D.engine truth E') (out : List (List Val)) (ha : s.Answers W D E' out) :
    ∃ views E2 lines, QueryViews W.project q views ∧ ShowsCounted D W w q truth E2 ∧
      IsTable (D.rows views) (PassesWhere { D with engine := E2 } W.project w views q)
        (fun r => ds.map (fun d => valueOf E2 w (W.project.fpk views) d [r]))
        (fun G => ms.map (fun m => valueOf E2 w (W.project.fpk views) m G)) (PassesHaving { D with engine := E2 } W.project w views q)
        ds.length lines ∧
      InOrder W.project w q lines ∧ Limited q.limit lines out := by
  obtain ⟨views, g, hv, hb, hc, ha⟩ := stmt_counted hs hq hp.wheres D truth E' hE ha
  have hW : ∀ r, PassesWhere ⟨fun vs => (D.rows vs).map (fun r => (r, [])), D.tables, E', D.test⟩ W.project w views q (g r) ↔
      PassesWhere { D with engine := E'.comap g } W.project w views q r := fun r => passesWhere_comap (g := g) rfl rfl _ _ _ _ r
  have hH : ∀ G, PassesHaving ⟨fun vs => (D.rows vs).map (fun r => (r, [])), D.tables, E', D.test⟩ W.project w views q (G.map g) ↔
      PassesHaving { D with engine := E'.comap g } W.project w views q G := fun G => passesHaving_comap (g := g) rfl rfl _ _ _ _ G
  obtain ⟨lines, cols, htab, ho, hsort, hout⟩ := block_table hb hp hg hne _ ha
  obtain ⟨c, fs, -, -, -, -, -, -, hlim, -⟩ := buildBlock_ok hb
  refine ⟨views, E'.comap g, lines, hv, hc, ?_, in_order hb hp hg hl ht hn ho hsort, ?_⟩
  · have := htab.comap
    have h1 : ∀ r, [g r] = [r].map g := fun r => rfl
    simp only [h1, valueOf_comap, hW, hH] at this
    exact this
  · rw [hout, hlim]
    exact limit_lines w q.limit lines hz

/-- C57 (b): without dimensions there is one line. -/
theorem C57_total (W : WinProject) (w : Warehouse) (q : Question) (s : WinStmt) (hs : buildWinStmt W w q = .ok s) (hq : ProperWindows W q)
    (ms : List AnsField) (hp : Proper W.project q [] ms) (hz : q.limit ≠ some 0) (D : Db ρ)
    (truth : ρ → String → Comparison → Option Bool) (E' : Engine (WRow ρ)) (hE : ReadsCases W D.engine truth E') (out : List (List Val))
    (ha : s.Answers W D E' out) :
    ∃ views E2 p, QueryViews W.project q views ∧ ShowsCounted D W w q truth E2 ∧
      (∀ r, p r = true ↔ PassesWhere { D with engine := E2 } W.project w views q r) ∧
      (PassesHaving { D with engine := E2 } W.project w views q ((D.rows views).filter p) →
        out = [ms.map (fun m => valueOf E2 w (W.project.fpk views) m ((D.rows views).filter p))]) ∧
      (¬ PassesHaving { D with engine := E2 } W.project w views q ((D.rows views).filter p) → out = []) := by
  obtain ⟨views, g, hv, hb, hc, ha⟩ := stmt_counted hs hq hp.wheres D truth E' hE ha
  have hW : ∀ r, PassesWhere ⟨fun vs => (D.rows vs).map (fun r => (r, [])), D.tables, E', D.test⟩ W.project w views q (g r) ↔
      PassesWhere { D with engine := E'.comap g } W.project w views q r := fun r => passesWhere_comap (g := g) rfl rfl _ _ _ _ r
  have hH : ∀ G, PassesHaving ⟨fun vs => (D.rows vs).map (fun r => (r, [])), D.tables, E', D.test⟩ W.project w views q (G.map g) ↔
      PassesHaving { D with engine := E'.comap g } W.project w views q G := fun G => passesHaving_comap (g := g) rfl rfl _ _ _ _ G
  obtain ⟨p, h1, h2, h3⟩ := block_total hb hp hz _ ha
  have hf : ((D.rows views).map g).filter p = ((D.rows views).filter (p ∘ g)).map g := List.filter_map
  refine ⟨views, E'.comap g, p ∘ g, hv, hc, ?_, ?_, ?_⟩
  · intro r
    rw [Function.comp_apply, h1, hW]
  · intro hpass
    rw [h2 (by rw [hf]; exact (hH _).mpr hpass), hf]
    simp only [valueOf_comap]
  · intro hpass
    exact h3 (by rw [hf]; exact fun h => hpass ((hH _).mp h))

end
end ML
