import Verif.MergeStmt.Lemmas
import Verif.Refs.Props
/- Columns of merged statements. -/
set_option autoImplicit false
namespace ML
open Spec

theorem replaceGo_char (a b : Char) (l : List Char) : replaceGo [a] [b] 0 l = l.map (fun c => if c = a then b else c) := by
  induction l with
  | nil => rfl
  | cons c l ih =>
    by_cases h : c = a
    · subst h
      simp [replaceGo, ih, List.isPrefixOf]
    · have : ([a].isPrefixOf (c :: l)) = false := by
        simp [List.isPrefixOf, Ne.symm h]
      simp [replaceGo, ih, h, this]

theorem id_column (f : MDim) (h : '.' ∉ f.view.toList ∧ '.' ∉ f.short.toList) :
    String.ofList (replaceAll ['.'] ['_'] f.id.toList) = f.column := by
  have hid : ∀ l : List Char, '.' ∉ l → l.map (fun c => if c = '.' then '_' else c) = l := by
    intro l hl
    conv_rhs => rw [← List.map_id l]
    apply List.map_congr_left
    intro c hc
    have : c ≠ '.' := fun e => hl (e ▸ hc)
    simp [this]
  unfold replaceAll MDim.id MDim.column
  rw [replaceGo_char, String.toList_append, String.toList_append, List.map_append, List.map_append, hid _ h.1, hid _ h.2]
  rw [← String.toList_inj, String.toList_ofList, String.toList_append, String.toList_append]
  rfl

theorem metricFold (l : List (String × MExpr)) (acc : List (String × MExpr)) :
    let r := l.foldl (fun acc p => if acc.any (fun q => q.1 = p.1) then acc else acc ++ [p]) acc
    (∀ p ∈ r, p ∈ acc ∨ p ∈ l) ∧ (∀ p ∈ acc, p ∈ r) ∧ (∀ p ∈ l, ∃ q ∈ r, q.1 = p.1) ∧ ((acc.map (·.1)).Nodup → (r.map (·.1)).Nodup) := by
  induction l generalizing acc with
  | nil => simp
  | cons x l ih =>
    simp only [List.foldl_cons]
    by_cases h : acc.any (fun q => q.1 = x.1) = true
    · rw [if_pos h]
      obtain ⟨h1, h2, h3, h4⟩ := ih acc
      refine ⟨fun p hp => ?_, h2, ?_, h4⟩
      · rcases h1 p hp with h | h
        · exact .inl h
        · exact .inr (by simp [h])
      · intro p hp
        rcases List.mem_cons.mp hp with rfl | hp
        · rw [List.any_eq_true] at h
          obtain ⟨q, hq, e⟩ := h
          exact ⟨q, h2 q hq, by simpa using e⟩
        · exact h3 p hp
    · rw [if_neg h]
      obtain ⟨h1, h2, h3, h4⟩ := ih (acc ++ [x])
      refine ⟨fun p hp => ?_, fun p hp => h2 p (by simp [hp]), ?_, fun hn => h4 ?_⟩
      · rcases h1 p hp with h | h
        · rcases List.mem_append.mp h with h | h
          · exact .inl h
          · exact .inr (by simp at h; simp [h])
        · exact .inr (by simp [h])
      · intro p hp
        rcases List.mem_cons.mp hp with rfl | hp
        · exact ⟨p, h2 p (by simp), rfl⟩
        · exact h3 p hp
      · rw [List.map_append, List.nodup_append]
        refine ⟨hn, by simp, ?_⟩
        intro a ha b hb e
        simp at hb
        subst e
        subst hb
        obtain ⟨q, hq, e⟩ := List.mem_map.mp ha
        exact h (List.any_eq_true.mpr ⟨q, hq, by simpa using e⟩)

/-- The metric columns: each metric once, from a sub-query that has it. -/
theorem metricColumns_spec (ms : List (String × List String)) :
    (∀ p ∈ metricColumns ms, ∃ q ∈ ms, p.1 ∈ q.2 ∧ p.2 = .col q.1 p.1) ∧
    (∀ q ∈ ms, ∀ a ∈ q.2, ∃ p ∈ metricColumns ms, p.1 = a) ∧ ((metricColumns ms).map (·.1)).Nodup := by
  unfold metricColumns
  obtain ⟨h1, _, h3, h4⟩ := metricFold
    ((ms.insertionSort (fun a b => a.1 ≤ b.1)).flatMap (fun p => p.2.map (fun a => (a, MExpr.col p.1 a)))) []
  refine ⟨fun p hp => ?_, fun q hq a ha => ?_, h4 (by simp)⟩
  · have := (h1 p hp).resolve_left (by simp)
    obtain ⟨q, hq, hx⟩ := List.mem_flatMap.mp this
    obtain ⟨a, ha, rfl⟩ := List.mem_map.mp hx
    exact ⟨q, (List.mem_insertionSort _).mp hq, ha, rfl⟩
  · exact h3 (a, .col q.1 a) (List.mem_flatMap.mpr ⟨q, (List.mem_insertionSort _).mpr hq, List.mem_map.mpr ⟨a, ha, rfl⟩⟩)

/-- The columns of the dimensions: each column once, and only those of dimensions. -/
theorem dimensionSqlGo_keys (d : MergeDef) (L : List (String × MDim)) (acc out : List (String × MExpr))
    (h : dimensionSqlGo d L acc = .ok out) :
    (∀ a, a ∈ out.map (·.1) ↔ a ∈ acc.map (·.1) ∨ ∃ p ∈ L, p.2.column = a) ∧ ((acc.map (·.1)).Nodup → (out.map (·.1)).Nodup) := by
  induction L generalizing acc with
  | nil =>
    simp only [dimensionSqlGo, Except.ok.injEq] at h
    subst h
    simp
  | cons q L ih =>
    obtain ⟨hq, f⟩ := q
    simp only [dimensionSqlGo] at h
    cases hs : dimensionSqlStep d acc hq f with
    | error e => rw [hs] at h; cases h
    | ok acc' =>
      rw [hs] at h
      obtain ⟨i1, i2⟩ := ih acc' h
      have key : (∀ a, a ∈ acc'.map (·.1) ↔ a ∈ acc.map (·.1) ∨ f.column = a) ∧ ((acc.map (·.1)).Nodup → (acc'.map (·.1)).Nodup) := by
        unfold dimensionSqlStep at hs
        have first : ∀ e, (∀ a, a ∈ (dictSet acc f.column e).map (·.1) ↔ a ∈ acc.map (·.1) ∨ f.column = a) ∧
            ((acc.map (·.1)).Nodup → ((dictSet acc f.column e).map (·.1)).Nodup) := by
          intro e
          refine ⟨fun a => ?_, fun hn => dictSet_nodup hn _ _⟩
          rw [dictSet_keys]
          constructor
          · rintro (h | h)
            · exact .inr h.symm
            · exact .inl h
          · rintro (h | h)
            · exact .inr h
            · exact .inl h.symm
        have hacc : ∀ acc1, acc1 = (match dictGet acc f.column with
            | none => dictSet acc f.column (MExpr.col hq f.column)
            | some e => dictSet acc f.column (.ifNull e (.col hq f.column))) →
            (∀ a, a ∈ acc1.map (·.1) ↔ a ∈ acc.map (·.1) ∨ f.column = a) ∧ ((acc.map (·.1)).Nodup → (acc1.map (·.1)).Nodup) := by
          intro acc1 e
          cases hg : dictGet acc f.column with
          | none => rw [hg] at e; subst e; exact first _
          | some x => rw [hg] at e; subst e; exact first _
        obtain ⟨k1, k2⟩ := hacc _ rfl
        by_cases hm : localMapping d f.id = []
        · rw [if_pos hm] at hs
          injection hs with hs
          rw [← hs]
          exact ⟨k1, k2⟩
        · rw [if_neg hm] at hs
          cases hn : nestedIfNull (presentFields d f) with
          | error e => rw [hn] at hs; cases hs
          | ok n =>
            rw [hn] at hs
            injection hs with hs
            rw [← hs]
            refine ⟨fun a => ?_, fun hnd => dictSet_nodup (k2 hnd) _ _⟩
            rw [dictSet_keys]
            refine (or_congr_right (k1 a)).trans ?_
            constructor
            · rintro (h | h)
              · exact .inr h.symm
              · exact h
            · exact fun h => .inr h
      refine ⟨fun a => ?_, fun hn => i2 (key.2 hn)⟩
      rw [i1, key.1]
      simp only [List.mem_cons]
      constructor
      · rintro ((h | h) | ⟨p, hp, e⟩)
        · exact .inl h
        · exact .inr ⟨_, .inl rfl, h⟩
        · exact .inr ⟨p, .inr hp, e⟩
      · rintro (h | ⟨p, hp | hp, e⟩)
        · exact .inl (.inl h)
        · subst hp; exact .inl (.inr e)
        · exact .inr ⟨p, hp, e⟩

theorem mem_dimensionOrder (d : MergeDef) (h : String) (f : MDim) :
    (h, f) ∈ dimensionOrder d ↔ ∃ l, (h, l) ∈ d.dims ∧ f ∈ l := by
  unfold dimensionOrder
  simp only [List.mem_flatMap, List.mem_insertionSort, List.mem_map, Prod.mk.injEq]
  constructor
  · rintro ⟨p, hp, g, hg, rfl, rfl⟩; exact ⟨p.2, hp, hg⟩
  · rintro ⟨l, hl, hf⟩; exact ⟨(h, l), hl, f, hf, rfl, rfl⟩

theorem dimsOf_of_mem {d : MergeDef} (hk : (d.dims.map (·.1)).Nodup) {h : String} {l : List MDim} (hm : (h, l) ∈ d.dims) :
    dimsOf d h = l := by
  unfold dimsOf
  rw [dictGet_of_mem hk hm]
  rfl

theorem mem_of_dimsOf {d : MergeDef} {h : String} {i : ℕ} {f : MDim} (hf : (dimsOf d h)[i]? = some f) :
    (h, dimsOf d h) ∈ d.dims ∧ f ∈ dimsOf d h := by
  unfold dimsOf at *
  cases hg : dictGet d.dims h with
  | none => rw [hg] at hf; simp at hf
  | some l => exact ⟨dictGet_mem hg, by rw [hg] at hf; exact List.mem_of_getElem? hf⟩

section
variable {V : Type} [DecidableEq V]

/-- A dimension column shows the value of its place. -/
theorem dimension_shown (d : MergeDef) (db : String → List (MRow V)) (n : ℕ) (hg : Grouped d db n) (h₀ : String) (hs : List String)
    (hh : d.hashes = h₀ :: hs) (hd : DimensionsMatch d) (sql : List (String × MExpr)) (hsql : dimensionSql d = .ok sql)
    (rows : List (JRow (MRow V))) (hr : mergedRows d db = .ok rows) (row : JRow (MRow V)) (hrow : row ∈ rows) (k : List V)
    (hk : About d k row) (c : String × MExpr) (hc : c ∈ sql) :
    ∃ h ∈ d.hashes, ∃ (i : ℕ) (f : MDim), (dimsOf d h)[i]? = some f ∧ f.column = c.1 ∧ c.2.eval row = k[i]? := by
  obtain ⟨hkeys, hnd⟩ := dimensionSqlGo_keys d _ _ sql hsql
  have hget : dictGet sql c.1 = some c.2 := dictGet_of_mem (hnd (by simp)) hc
  obtain ⟨⟨h, f⟩, hp, hcol⟩ := ((hkeys c.1).mp (List.mem_map.mpr ⟨c, hc, rfl⟩)).resolve_left (by simp)
  simp only at hcol
  obtain ⟨l, hl, hf⟩ := (mem_dimensionOrder d h f).mp hp
  have hdl := dimsOf_of_mem hd.keys hl
  have hhm : h ∈ d.hashes := hd.listed _ hl
  obtain ⟨i, hi, hfi⟩ := List.getElem_of_mem hf
  have hi' : (dimsOf d h)[i]? = some f := by rw [hdl, List.getElem?_eq_getElem hi, hfi]
  refine ⟨h, hhm, i, f, hi', hcol, ?_⟩
  rcases hd.places h hhm i f hi' with ⟨s1, s2, s3⟩ | ⟨m1, m2, m3, m4, m5⟩
  · obtain ⟨e, he, hfirst⟩ := C34_same_name d sql hsql c.1 (by
        intro f' hf' hc' g hgm hkg
        obtain ⟨q, hq, hfq⟩ := List.mem_flatMap.mp hf'
        obtain ⟨q', hq', hgq⟩ := List.mem_flatMap.mp hgm
        exact s3 q hq f' hfq (by rw [hc', hcol]) q' hq' g hgq hkg) ⟨f, List.mem_flatMap.mpr ⟨_, hl, hf⟩, hcol⟩ row
    rw [hget] at he
    injection he with he
    rw [he]
    refine C33_shown d db n hg h₀ hs hh rows hr row hrow k hk i
      (((dimensionOrder d).filter (fun p => p.2.column = c.1)).map (fun p => (p.1, c.1))) ?_ ?_ _ ?_
    · intro p hp
      obtain ⟨⟨h', f'⟩, hx, rfl⟩ := List.mem_map.mp hp
      rw [List.mem_filter, decide_eq_true_eq] at hx
      obtain ⟨l', hl', hf'⟩ := (mem_dimensionOrder d h' f').mp hx.1
      have := hd.listed _ hl'
      exact ⟨this, by rw [s1 h' this, hcol]⟩
    · intro h' hm'
      have := s1 h' hm'
      cases hx : (dimsOf d h')[i]? with
      | none => rw [hx] at this; cases this
      | some g =>
        rw [hx] at this
        simp only [Option.map_some, Option.some.injEq] at this
        obtain ⟨a1, a2⟩ := mem_of_dimsOf hx
        refine ⟨c.1, List.mem_map.mpr ⟨(h', g), List.mem_filter.mpr ⟨(mem_dimensionOrder d h' g).mpr ⟨_, a1, a2⟩, ?_⟩, rfl⟩⟩
        rw [decide_eq_true_eq, this, hcol]
    · rw [List.map_map]
      exact hfirst
  · have hall : ∀ p ∈ (dimensionOrder d).filter (fun p => p.2.column = c.1), p = (h, f) := by
      rintro ⟨h', f'⟩ hx
      rw [List.mem_filter, decide_eq_true_eq] at hx
      obtain ⟨l', hl', hf'⟩ := (mem_dimensionOrder d h' f').mp hx.1
      obtain ⟨e1, e2⟩ := m1 _ hl' f' hf' (by rw [hcol]; exact hx.2)
      exact Prod.ext e1 e2
    have hin : (h, f) ∈ (dimensionOrder d).filter (fun p => p.2.column = c.1) :=
      List.mem_filter.mpr ⟨hp, by rw [decide_eq_true_eq]; exact hcol⟩
    have hsplit : ∃ before, (dimensionOrder d).filter (fun p => p.2.column = c.1) = before ++ [(h, f)] := by
      have hne := List.ne_nil_of_mem hin
      refine ⟨((dimensionOrder d).filter (fun p => p.2.column = c.1)).dropLast, (List.dropLast_append_getLast hne).symm.trans ?_⟩
      rw [hall _ (List.getLast_mem hne)]
    obtain ⟨before, hb⟩ := hsplit
    have hlm : ∀ m', m' ∈ localMapping d f.id ↔ ∃ m ∈ d.mapping f.key,
        m' = ⟨m.cte, match f.group with | none => m.field | some g => m.field ++ "_" ++ g⟩ := by
      intro m'
      unfold localMapping
      simp only [List.mem_flatMap, List.mem_filter, decide_eq_true_eq, List.mem_map]
      constructor
      · rintro ⟨g, ⟨⟨q, hq, hgq⟩, hkg⟩, m, hm, rfl⟩
        have := (m2 q hq g hgq).mp hkg
        subst this
        exact ⟨m, hm, rfl⟩
      · rintro ⟨m, hm, rfl⟩
        exact ⟨f, ⟨⟨_, hl, hf⟩, (m2 _ hl f hf).mpr rfl⟩, m, hm, rfl⟩
    have hne : localMapping d f.id ≠ [] := by
      obtain ⟨m, hm⟩ := List.exists_mem_of_ne_nil _ m3
      exact List.ne_nil_of_mem ((hlm _).mpr ⟨m, hm, rfl⟩)
    obtain ⟨e, he, hfirst⟩ := C34_mapped_partial d sql hsql c.1 before (h, f) hb hne row
    rw [hget] at he
    injection he with he
    rw [he]
    have hpf : ∀ m', m' ∈ presentFields d f ↔ m' ∈ localMapping d f.id := by
      intro m'
      unfold presentFields
      rw [List.mem_filter]
      constructor
      · exact fun h => h.1
      · intro hm
        refine ⟨hm, ?_⟩
        obtain ⟨m, hmm, rfl⟩ := (hlm m').mp hm
        obtain ⟨g, g1, g2, g3, g4⟩ := m5 m hmm
        obtain ⟨a1, a2⟩ := mem_of_dimsOf g1
        rw [List.any_eq_true]
        exact ⟨g, List.mem_flatMap.mpr ⟨_, a1, a2⟩, by rw [decide_eq_true_eq]; exact g4.symm⟩
    refine C33_shown d db n hg h₀ hs hh rows hr row hrow k hk i
      ((h, c.1) :: (presentFields d f).map (fun m => (m.cte, String.ofList (replaceAll ['.'] ['_'] m.field.toList)))) ?_ ?_ _ ?_
    · intro p hp
      rcases List.mem_cons.mp hp with rfl | hp
      · exact ⟨hhm, by rw [hi', Option.map_some, hcol]⟩
      · obtain ⟨m', hm', rfl⟩ := List.mem_map.mp hp
        obtain ⟨m, hmm, rfl⟩ := (hlm m').mp ((hpf m').mp hm')
        obtain ⟨g, g1, g2, g3, g4⟩ := m5 m hmm
        obtain ⟨a1, a2⟩ := mem_of_dimsOf g1
        refine ⟨g2, ?_⟩
        simp only
        rw [g1, Option.map_some, ← id_column g (hd.noDots _ a1 g a2), ← g4]
        rfl
    · intro h' hm'
      by_cases e : h' = h
      · subst e; exact ⟨c.1, by simp⟩
      · obtain ⟨m, hmm, rfl⟩ := m4 h' hm' e
        refine ⟨_, List.mem_cons_of_mem _ (List.mem_map.mpr ⟨_, (hpf _).mpr ((hlm _).mpr ⟨m, hmm, rfl⟩), rfl⟩)⟩
    · rw [List.map_cons, List.map_map]
      exact hfirst

/-- The row a merged row carries of a sub-query. -/
theorem carries_find (d : MergeDef) (db : String → List (MRow V)) (k : List V) (row : JRow (MRow V)) (hc : Carries d db k row)
    (h : String) (hm : h ∈ d.hashes) : dictGet row h = (db h).find? (fun t => keyOf d h t = k.map some) := by
  cases hf : (db h).find? (fun t => keyOf d h t = k.map some) with
  | some t =>
    have := List.find?_some hf
    rw [decide_eq_true_eq] at this
    exact (hc h hm t).mpr ⟨List.mem_of_find?_eq_some hf, this⟩
  | none =>
    cases hg : dictGet row h with
    | none => rfl
    | some t =>
      obtain ⟨h1, h2⟩ := (hc h hm t).mp hg
      have := List.find?_eq_none.mp hf t h1
      simp [h2] at this

theorem metric_find {d : MergedDef} (ha : MetricsApart d) {p : String × List String} (hp : p ∈ d.metrics) {c : String} (hc : c ∈ p.2) :
    d.metrics.find? (fun q => c ∈ q.2) = some p := by
  cases hf : d.metrics.find? (fun q => decide (c ∈ q.2)) with
  | none =>
    have := List.find?_eq_none.mp hf p hp
    simp [hc] at this
  | some q =>
    have := List.find?_some hf
    rw [decide_eq_true_eq] at this
    rw [ha.once q (List.mem_of_find?_eq_some hf) p hp c this hc]

theorem metric_column {d : MergedDef} (ha : MetricsApart d) {db : String → List (MRow V)} {k : List V} {row : JRow (MRow V)}
    (hcar : Carries d.src db k row) {p : String × List String} (hp : p ∈ d.metrics) {c : String} (hc : c ∈ p.2) :
    (dictGet row p.1).bind (fun r => r c) = metricAt d db k c := by
  unfold metricAt
  rw [metric_find ha hp hc, carries_find d.src db k row hcar p.1 (ha.listed p hp)]

/-- A metric's column is found in its sub-query. -/
theorem resolve_metric {d : MergedDef} (hn : d.src.hashes.Nodup) (ha : MetricsApart d) {p : String × List String} (hp : p ∈ d.metrics)
    {c : String} (hc : c ∈ p.2) : ownerOf (d.src.hashes.map (fun h => (h, subColumns d h))) c = some p.1 := by
  have hsub : ∀ h, c ∈ subColumns d h ↔ h = p.1 := by
    intro h
    unfold subColumns
    rw [List.mem_append]
    constructor
    · rintro (h1 | h1)
      · exfalso
        cases hg : dictGet d.src.dims h with
        | none => rw [hg] at h1; simp at h1
        | some l =>
          rw [hg] at h1
          obtain ⟨f, hf, e⟩ := List.mem_map.mp h1
          exact ha.noDimension p hp c hc _ (dictGet_mem hg) f hf e
      · cases hg : dictGet d.metrics h with
        | none => rw [hg] at h1; simp at h1
        | some l =>
          rw [hg] at h1
          have := ha.once _ (dictGet_mem hg) p hp c h1 hc
          rw [← this]
    · rintro rfl
      right
      rw [dictGet_of_mem ha.keys hp]
      exact hc
  have hfil : ∀ l : List String, l.Nodup → (p.1 ∈ l → (l.map (fun h => (h, subColumns d h))).filter (fun q => decide (c ∈ q.2)) =
      [(p.1, subColumns d p.1)]) ∧ (p.1 ∉ l → (l.map (fun h => (h, subColumns d h))).filter (fun q => decide (c ∈ q.2)) = []) := by
    intro l
    induction l with
    | nil => intro _; simp
    | cons h l ih =>
      intro hnd
      rw [List.nodup_cons] at hnd
      obtain ⟨i1, i2⟩ := ih hnd.2
      rw [List.map_cons, List.filter_cons]
      by_cases e : h = p.1
      · have : decide (c ∈ subColumns d h) = true := by rw [decide_eq_true_eq, hsub]; exact e
        simp only [this, if_true]
        rw [i2 (e ▸ hnd.1)]
        subst e
        exact ⟨fun _ => rfl, fun hx => absurd (by simp) hx⟩
      · have : decide (c ∈ subColumns d h) = false := by rw [decide_eq_false_iff_not, hsub]; exact e
        simp only [this]
        refine ⟨fun hx => ?_, fun hx => ?_⟩
        · exact i1 ((List.mem_cons.mp hx).resolve_left (Ne.symm e))
        · exact i2 (fun hy => hx (by simp [hy]))
  unfold ownerOf
  rw [(hfil _ hn).1 (ha.listed p hp)]

theorem name_metric {d : MergedDef} (hn : d.src.hashes.Nodup) (ha : MetricsApart d) {db : String → List (MRow V)} {k : List V}
    {row : JRow (MRow V)} (hcar : Carries d.src db k row) {p : String × List String} (hp : p ∈ d.metrics) {c : String} (hc : c ∈ p.2) :
    nameValue (d.src.hashes.map (fun h => (h, subColumns d h))) row c = metricAt d db k c := by
  unfold nameValue
  rw [resolve_metric hn ha hp hc, Option.bind_some, metric_column ha hcar hp hc]

end

/-- The merged metrics in the SELECT. -/
theorem mergedColumns_spec (get : String → List Char → Res SMetric) (depth : ℕ) (ms : List SMetric) (acc out : List (MSel × String))
    (h : mergedColumns get depth ms acc = .ok out) :
    (∀ c ∈ out, c ∈ acc ∨ ∃ m ∈ ms, ∃ t, strictSql get depth m = .ok t ∧ c = (.formula t, m.column)) ∧ (∀ c ∈ acc, c ∈ out) ∧
    (∀ m ∈ ms, ∃ c ∈ out, c.2 = m.column) ∧ ((acc.map (·.2)).Nodup → (out.map (·.2)).Nodup) ∧
    ∀ m ∈ ms, m.column ∉ acc.map (·.2) → (∀ m' ∈ ms, m'.column = m.column → m' = m) →
      ∃ t, strictSql get depth m = .ok t ∧ (.formula t, m.column) ∈ out := by
  induction ms generalizing acc with
  | nil =>
    simp only [mergedColumns, Except.ok.injEq] at h
    subst h
    simp
  | cons m ms ih =>
    simp only [mergedColumns] at h
    by_cases ha : acc.any (fun c => c.2 = m.column) = true
    · rw [if_pos ha] at h
      obtain ⟨h1, h2, h3, h4, h5⟩ := ih acc h
      have hin : m.column ∈ acc.map (·.2) := by
        rw [List.any_eq_true] at ha
        obtain ⟨q, hq, e⟩ := ha
        exact List.mem_map.mpr ⟨q, hq, by simpa using e⟩
      refine ⟨fun c hc => ?_, h2, ?_, h4, ?_⟩
      · rcases h1 c hc with h | ⟨m', hm', r⟩
        · exact .inl h
        · exact .inr ⟨m', by simp [hm'], r⟩
      · intro m' hm'
        rcases List.mem_cons.mp hm' with rfl | hm'
        · obtain ⟨q, hq, e⟩ := List.mem_map.mp hin
          exact ⟨q, h2 q hq, e⟩
        · exact h3 m' hm'
      · intro m' hm' hna hu
        rcases List.mem_cons.mp hm' with rfl | hm'
        · exact absurd hin hna
        · exact h5 m' hm' hna (fun x hx => hu x (by simp [hx]))
    · rw [if_neg ha] at h
      cases hs : strictSql get depth m with
      | error e => rw [hs] at h; cases h
      | ok t =>
        rw [hs] at h
        simp only at h
        obtain ⟨h1, h2, h3, h4, h5⟩ := ih _ h
        refine ⟨fun c hc => ?_, fun c hc => h2 c (by simp [hc]), ?_, fun hn => h4 ?_, ?_⟩
        · rcases h1 c hc with h | ⟨m', hm', r⟩
          · rcases List.mem_append.mp h with h | h
            · exact .inl h
            · rw [List.mem_singleton] at h
              exact .inr ⟨m, by simp, t, hs, h⟩
          · exact .inr ⟨m', by simp [hm'], r⟩
        · intro m' hm'
          rcases List.mem_cons.mp hm' with rfl | hm'
          · exact ⟨_, h2 (.formula t, m'.column) (by simp), rfl⟩
          · exact h3 m' hm'
        · rw [List.map_append, List.nodup_append]
          refine ⟨hn, by simp, ?_⟩
          intro a ha' b hb e
          simp at hb
          subst e
          subst hb
          obtain ⟨q, hq, e⟩ := List.mem_map.mp ha'
          exact ha (List.any_eq_true.mpr ⟨q, hq, by simpa using e⟩)
        · intro m' hm' hna hu
          rcases List.mem_cons.mp hm' with rfl | hm'
          · exact ⟨t, hs, h2 _ (by simp)⟩
          · by_cases e : m.column = m'.column
            · have := hu m (by simp) e
              subst this
              exact ⟨t, hs, h2 _ (by simp)⟩
            · refine h5 m' hm' ?_ (fun x hx => hu x (by simp [hx]))
              simp only [List.map_append, List.map_cons, List.map_nil, List.mem_append, List.mem_singleton, not_or]
              exact ⟨hna, fun c => e c.symm⟩

end ML
