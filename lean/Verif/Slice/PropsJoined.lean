import Verif.Slice.Props
import Verif.Slice.PropsEx
import Verif.SymAgg.Props
/-
C83: metrics of other views may be asked for as well, when those are looked up.
-/
set_option autoImplicit false
namespace ML
open Spec

section
variable {ρ : Type}

theorem uncorrected_value (E : Engine ρ) (w : Warehouse) (fpk fpk' : FunctionalPk) (f : AnsField) (m : Measure) (hf : f.sql = .measure m) (h : Uncorrected w fpk m)
    (h' : Uncorrected w fpk' m) (G G' : List ρ) (hv : (G.filterMap (fun r => E.value r m.sql)).Perm (G'.filterMap (fun r => E.value r m.sql))) :
    valueOf E w fpk f G = valueOf E w fpk' f G' := by
  have hneed : ∀ fpk, ((∃ id s, m.pk = some (id, s) ∧ fpk = .key id) ∨ fpk = .none ∨ w ∉ [Warehouse.snowflake, .redshift, .bigquery, .postgres, .duckDb]) →
      supportsSymmetric w = true → needsSymmetric m fpk = .ok false := by
    rintro fpk (⟨id, s, h1, rfl⟩ | rfl | h) hs
    · unfold needsSymmetric
      simp [h1]
    · rfl
    · cases w <;> simp_all [supportsSymmetric]
  unfold valueOf
  rw [hf]
  simp only
  have hsum := drill_sqlSum_perm hv
  have hlen := hv.length_eq
  have hdup := hv.dedup.length_eq
  have hmax := sqlMax_perm hv
  have hmin := sqlMin_perm hv
  have hmed := median_perm hv
  unfold aggregateSql
  unfold Uncorrected at h h'
  cases ht : m.type <;> simp only [ht, List.mem_cons, reduceCtorEq, List.not_mem_nil, or_self, or_false, or_true, false_and, true_and, false_or] at h h' ⊢
  case sum =>
    cases hs : supportsSymmetric w with
    | false => exact hsum
    | true => rw [hneed _ (by simpa using h) hs, hneed _ (by simpa using h') hs]; exact hsum
  case count =>
    have : (some ((G.filterMap (fun r => E.value r m.sql)).length : ℚ) : Val) = some ((G'.filterMap (fun r => E.value r m.sql)).length : ℚ) := by rw [hlen]
    cases hs : supportsSymmetric w with
    | false => exact this
    | true => rw [hneed _ (by simpa using h) hs, hneed _ (by simpa using h') hs]; exact this
  case average =>
    have : (if G.filterMap (fun r => E.value r m.sql) = [] then none else
        some ((G.filterMap (fun r => E.value r m.sql)).sum / ((G.filterMap (fun r => E.value r m.sql)).length : ℚ)) : Val) =
        if G'.filterMap (fun r => E.value r m.sql) = [] then none else
        some ((G'.filterMap (fun r => E.value r m.sql)).sum / ((G'.filterMap (fun r => E.value r m.sql)).length : ℚ)) := by
      have he : G.filterMap (fun r => E.value r m.sql) = [] ↔ G'.filterMap (fun r => E.value r m.sql) = [] := by
        rw [← List.length_eq_zero_iff, ← List.length_eq_zero_iff, hlen]
      by_cases hc : G.filterMap (fun r => E.value r m.sql) = []
      · rw [if_pos hc, if_pos (he.mp hc)]
      · rw [if_neg hc, if_neg (fun c => hc (he.mpr c)), hlen, hv.sum_eq]
    cases hs : supportsSymmetric w with
    | false => exact this
    | true => rw [hneed _ (by simpa using h) hs, hneed _ (by simpa using h') hs]; exact this
  case countDistinct =>
    have : (some ((G.filterMap (fun r => E.value r m.sql)).dedup.length : ℚ) : Val) = some ((G'.filterMap (fun r => E.value r m.sql)).dedup.length : ℚ) := by rw [hdup]
    exact this
  case max => exact hmax
  case min => exact hmin
  case median => cases w <;> first | rfl | exact hmed

/-- C83 (b): the same when the other metrics are of views that are looked up, so that the FROM has more columns (C81 (c), (d)): metrics that are written without a correction for
repeated rows have the same values on the same lines. -/
theorem C83_looked_up (P : AnsProject) (w : Warehouse) (q q' : Question) (s s' : Stmt) (hs : buildStmt P w q = .ok s) (hs' : buildStmt P w q' = .ok s')
    (ds ms ms' : List AnsField) (hp : Proper P q ds ms) (hp' : Proper P q' ds ms') (hne : ds ≠ []) (hg : GroupsRows q ds ms)
    (hg' : GroupsRows q' ds ms') (hq : ShowsAll w q) (hq' : ShowsAll w q') (hl : LabelsDiffer P) (D : Db ρ) (hh : q.havings = []) (hh' : q'.havings = [])
    (hw : ∀ views views', QueryViews P q views → QueryViews P q' views' → Widens D P w q q' ds ms' views views')
    (hm : ∀ f ∈ ms', ∀ m, f.sql = .measure m → ∀ views, QueryViews P q views ∨ QueryViews P q' views → Uncorrected w (P.fpk views) m)
    (mj : List Nat) (hmj : List.Forall₂ (fun f j => ms[j]? = some f) ms' mj)
    (out out' : List (List Val)) (ha : s.Answers D out) (ha' : s'.Answers D out') :
    out'.Perm (out.map (columns (List.range ds.length ++ mj.map (ds.length + ·)))) := by
  obtain ⟨views, hv, ht⟩ := answer_table P w q s hs ds ms hp hg hne hq hl D out ha
  obtain ⟨views', hv', ht'⟩ := answer_table P w q' s' hs' ds ms' hp' hg' hne hq' hl D out' ha'
  obtain ⟨part, hperm, hpart⟩ := hw views views' hv hv'
  rw [having_none hh] at ht
  rw [having_none hh'] at ht'
  have hdims : ∀ r ∈ D.rows views, ds.map (fun d => valueOf D.engine w (P.fpk views) d [r]) = ds.map (fun d => valueOf D.engine w (P.fpk views') d [part r]) := by
    intro r hr
    refine List.map_congr_left fun d hd => ?_
    obtain ⟨sq, hsq⟩ := hp.dimension d hd
    have := (hpart r hr).2.1 d hd sq hsq
    simp [valueOf, hsq, this]
  have hdj : List.Forall₂ (fun f j => ds[j]? = some f) ds (List.range ds.length) := by
    rw [List.forall₂_iff_get]
    refine ⟨by simp, fun i h1 h2 => ?_⟩
    simp
  have hcols : ∀ r G, columns (List.range ds.length ++ mj.map (ds.length + ·)) (ds.map (fun d => valueOf D.engine w (P.fpk views) d [r]) ++
      ms.map (fun m => valueOf D.engine w (P.fpk views) m G)) = ds.map (fun d => valueOf D.engine w (P.fpk views) d [r]) ++
      ms'.map (fun m => valueOf D.engine w (P.fpk views) m G) := by
    intro r G
    have : ∀ l, columns (List.range ds.length ++ mj.map (ds.length + ·)) l = columns (List.range ds.length) l ++ columns (mj.map (ds.length + ·)) l := by
      intro l
      unfold columns
      rw [List.map_append]
    rw [this, columns_dimensions D.engine w _ hdj, columns_metrics D.engine w _ hmj _ _ _ (by simp)]
  have hbehind : ∀ r ∈ D.rows views,
      (behindRow (D.rows views') (PassesWhere D P w views' q') (fun r => ds.map (fun d => valueOf D.engine w (P.fpk views') d [r])) (part r)).Perm
      ((behindRow (D.rows views) (PassesWhere D P w views q) (fun r => ds.map (fun d => valueOf D.engine w (P.fpk views) d [r])) r).map part) := by
    intro r hr
    classical
    unfold behindRow
    refine (hperm.symm.filter _).trans (List.Perm.of_eq ?_)
    rw [List.filter_map]
    congr 1
    refine List.filter_congr fun x hx => ?_
    rw [Bool.eq_iff_iff, Function.comp_apply, decide_eq_true_iff, decide_eq_true_iff, ← (hpart x hx).1]
    beta_reduce
    rw [hdims x hx, hdims r hr]
  have hval : ∀ r ∈ D.rows views,
      ms'.map (fun m => valueOf D.engine w (P.fpk views') m (behindRow (D.rows views') (PassesWhere D P w views' q')
        (fun r => ds.map (fun d => valueOf D.engine w (P.fpk views') d [r])) (part r))) =
      ms'.map (fun m => valueOf D.engine w (P.fpk views) m (behindRow (D.rows views) (PassesWhere D P w views q)
        (fun r => ds.map (fun d => valueOf D.engine w (P.fpk views) d [r])) r)) := by
    intro r hr
    refine List.map_congr_left fun f hf => ?_
    obtain ⟨m, hmm⟩ := hp'.measure f hf
    refine uncorrected_value D.engine w _ _ f m hmm (hm f hf m hmm views' (.inr hv')) (hm f hf m hmm views (.inl hv)) _ _ ?_
    refine ((hbehind r hr).filterMap _).trans (List.Perm.of_eq ?_)
    rw [List.filterMap_map]
    refine List.filterMap_congr fun x hx => ?_
    exact ((hpart x (List.mem_filter.mp hx).1).2.2 f hf m hmm).symm
  have hone : ∀ r x, ds.map (fun d => valueOf D.engine w (P.fpk views) d [r]) = ds.map (fun d => valueOf D.engine w (P.fpk views) d [x]) →
      behindRow (D.rows views) (PassesWhere D P w views q) (fun r => ds.map (fun d => valueOf D.engine w (P.fpk views) d [r])) r =
      behindRow (D.rows views) (PassesWhere D P w views q) (fun r => ds.map (fun d => valueOf D.engine w (P.fpk views) d [r])) x := by
    intro r x h
    classical
    refine List.filter_congr fun y _ => ?_
    rw [Bool.eq_iff_iff, decide_eq_true_iff, decide_eq_true_iff]
    show _ ∧ ds.map (fun d => valueOf D.engine w (P.fpk views) d [y]) = ds.map (fun d => valueOf D.engine w (P.fpk views) d [r]) ↔ _
    rw [h]
  refine (List.perm_ext_iff_of_nodup (table_nodup ht') ?_).mpr fun l => ?_
  · refine (List.nodup_map_iff_inj_on (table_nodup ht)).mpr ?_
    intro l hl l' hl' e
    obtain ⟨r, -, -, -, rfl⟩ := (table_iff ht l).mp hl
    obtain ⟨x, -, -, -, rfl⟩ := (table_iff ht l').mp hl'
    rw [hcols, hcols] at e
    have e := List.append_inj_left e (by simp)
    rw [hone r x e, e]
  · rw [table_iff ht', List.mem_map]
    constructor
    · rintro ⟨r', hr', h1, -, rfl⟩
      obtain ⟨r, hr, rfl⟩ := List.mem_map.mp (hperm.mem_iff.mpr hr')
      refine ⟨_, (table_iff ht _).mpr ⟨r, hr, (hpart r hr).1.mpr h1, trivial, rfl⟩, ?_⟩
      rw [hcols, hval r hr, hdims r hr]
    · rintro ⟨l, hl, rfl⟩
      obtain ⟨r, hr, h1, -, rfl⟩ := (table_iff ht l).mp hl
      refine ⟨part r, hperm.mem_iff.mp (List.mem_map.mpr ⟨r, hr, rfl⟩), (hpart r hr).1.mp h1, trivial, ?_⟩
      rw [hcols, hval r hr, hdims r hr]


/-- C83 (c): the same for queries without dimensions: each total is the same, also the condition on metrics that decides whether there is a line. -/
theorem C83_totals (P : AnsProject) (w : Warehouse) (q q' : Question) (s s' : Stmt) (hs : buildStmt P w q = .ok s) (hs' : buildStmt P w q' = .ok s')
    (ms ms' : List AnsField) (hp : Proper P q [] ms) (hp' : Proper P q' [] ms') (hq : ShowsAll w q) (hq' : ShowsAll w q') (D : Db ρ)
    (hset : SetOfViews D P) (hviews : SameViews P q q') (hw : q'.wheres = q.wheres) (hh : q'.havings = q.havings) (hfo : q'.fieldOf = q.fieldOf)
    (mj : List Nat) (hmj : List.Forall₂ (fun f j => ms[j]? = some f) ms' mj)
    (out out' : List (List Val)) (ha : s.Answers D out) (ha' : s'.Answers D out') :
    out' = out.map (columns mj) := by
  obtain ⟨views, p, hv, h1, h2, h3⟩ := C55_total P w q s hs ms hp hq.groups (by rw [hq.limit]; simp) D out ha
  obtain ⟨views', p', hv', h1', h2', h3'⟩ := C55_total P w q' s' hs' ms' hp' hq'.groups (by rw [hq'.limit]; simp) D out' ha'
  have hvv := hviews views views' hv hv'
  obtain ⟨e1, e2, e3⟩ := hset views views' hvv
  have hpass : ∀ r, PassesWhere D P w views' q' r ↔ PassesWhere D P w views q r := by
    intro r
    unfold PassesWhere
    rw [hfo, access_pass hset w hvv q.fieldOf [r], ← e2, hw]
  have hhav : PassesHaving D P w views' q' = PassesHaving D P w views q := by
    funext G
    unfold PassesHaving
    rw [← e2, hh, hfo]
  have hpp : p' = p := by
    funext r
    rw [Bool.eq_iff_iff, h1', h1, hpass]
  rw [hhav, hpp, ← e1] at h2' h3'
  by_cases hc : PassesHaving D P w views q ((D.rows views).filter p)
  · rw [h2 hc, h2' hc, ← e2]
    have := columns_metrics D.engine w (P.fpk views) hmj ((D.rows views).filter p) [] 0 rfl
    have hz : mj.map (0 + ·) = mj := by simp
    rw [hz, List.nil_append] at this
    rw [List.map_cons, List.map_nil, this]
  · rw [h3 hc, h3' hc]
    rfl

end

/-- The hypotheses of C83 (c). -/
example : ∃ s s' out out', buildStmt (drillP (.key "orders.id")) .snowflake (drillQ []) = .ok s ∧
    buildStmt (drillP (.key "orders.id")) .snowflake { drillQ [] with metrics := ["revenue"] } = .ok s' ∧
    s.Answers (sliceDb [(1, 1, 7, 10), (2, 2, 7, 5), (3, 2, 8, 1)]) out ∧ s'.Answers (sliceDb [(1, 1, 7, 10), (2, 2, 7, 5), (3, 2, 8, 1)]) out' ∧
    out' = out.map (columns [1]) := by
  obtain ⟨s, hs⟩ := ok_of_isOk (x := buildStmt (drillP (.key "orders.id")) .snowflake (drillQ [])) (by decide +kernel)
  obtain ⟨s', hs'⟩ := ok_of_isOk (x := buildStmt (drillP (.key "orders.id")) .snowflake { drillQ [] with metrics := ["revenue"] }) (by decide +kernel)
  obtain ⟨hp, -, -⟩ := drill_proper (.key "orders.id")
  have hp' : Proper (drillP (.key "orders.id")) { drillQ [] with metrics := ["revenue"] } [] [drillRevenue] :=
    ⟨.nil, .cons (drill_get _).2.2.2 .nil, by simp, by simp [drillRevenue], trivial, trivial⟩
  have a1 : askedOrder .snowflake (drillQ []) = [("buyers", true)] := by decide +kernel
  have a2 : askedOrder .snowflake { drillQ [] with metrics := ["revenue"] } = [("revenue", true)] := by decide +kernel
  obtain ⟨out, ho⟩ := C55_answered _ _ _ s hs _ _ hp rfl (by decide +kernel) (fun _ => drill_orders _ _) (sliceDb [(1, 1, 7, 10), (2, 2, 7, 5), (3, 2, 8, 1)])
  obtain ⟨out', ho'⟩ := C55_answered _ _ _ s' hs' _ _ hp' rfl (by decide +kernel) (fun _ => slice_ordered rfl a2 (by decide) (by simp))
    (sliceDb [(1, 1, 7, 10), (2, 2, 7, 5), (3, 2, 8, 1)])
  exact ⟨s, s', out, out', hs, hs', ho, ho', C83_totals _ _ _ _ s s' hs hs' _ _ hp hp' (slice_all ⟨rfl, rfl, rfl⟩ a1 (by decide))
    (slice_all ⟨rfl, rfl, rfl⟩ a2 (by decide)) _ (slice_set _ _) (slice_same _ _ _ (by decide) (by decide) (by decide) (by decide)) rfl rfl rfl [1]
    (.cons rfl .nil) out out' ho ho'⟩

/-- Revenue by region, with or without the number of cities of the customers (an example; it models no file in /repo). -/
def widerQ (metrics : List String) : Question := { drillQ ["region"] with metrics := metrics }

def drillCities : AnsField := ⟨"customers", "cities", false,
  .measure { type := .countDistinct, sql := "customers.city", pk := some ("customers.id", "customers.id"), distinctKey := "customers.id" }⟩

theorem wider_get (fpk : FunctionalPk) : (drillP fpk).get "cities" = .ok drillCities := by
  have : ansGet drillTable "cities" = .ok drillCities := by decide +kernel
  exact this

theorem wider_views (fpk : FunctionalPk) (views : List String) :
    (QueryViews (drillP fpk) (widerQ ["revenue", "cities"]) views → "customers" ∈ views) ∧
    (QueryViews (drillP fpk) (widerQ ["revenue"]) views → "customers" ∉ views) := by
  obtain ⟨h1, h2, h3, h4⟩ := drill_get fpk
  constructor
  · rintro ⟨fs, hn, -, hv⟩
    obtain ⟨f, hf, he⟩ := forall₂_mem_left hn (show "cities" ∈ _ by simp [widerQ])
    rw [wider_get] at he
    cases he
    exact (hv _).mpr ⟨_, hf, rfl⟩
  · rintro ⟨fs, hn, -, hv⟩ hc
    obtain ⟨f, hf, he⟩ := (hv _).mp hc
    obtain ⟨n, hn1, hn2⟩ := forall₂_mem_right hn hf
    have hn1 : n ∈ ["revenue", "region"] := hn1
    simp only [List.mem_cons, List.not_mem_nil, or_false] at hn1
    rcases hn1 with rfl | rfl
    · rw [h4] at hn2; cases hn2; exact absurd he (by decide)
    · rw [h1] at hn2; cases hn2; exact absurd he (by decide)

theorem wider_asked (m : String) (ms : List String) : askedOrder .snowflake (widerQ (m :: ms)) = [(m, true)] := by
  show defaultAsked .snowflake (m :: ms) ["region"] = _
  simp [defaultAsked]

/-- The hypotheses of C83 (b): revenue by region, alone and beside the number of cities that the customers come from. -/
example : ∃ s s' out out', buildStmt (drillP (.key "orders.id")) .snowflake (widerQ ["revenue", "cities"]) = .ok s ∧
    buildStmt (drillP (.key "orders.id")) .snowflake (widerQ ["revenue"]) = .ok s' ∧
    s.Answers (joinedDb lookDb lookFrom lookE (fun _ _ => .t)) out ∧ s'.Answers (joinedDb lookDb lookFrom lookE (fun _ _ => .t)) out' ∧
    out'.Perm (out.map (columns [0, 1])) := by
  obtain ⟨s, hs⟩ := ok_of_isOk (x := buildStmt (drillP (.key "orders.id")) .snowflake (widerQ ["revenue", "cities"])) (by decide +kernel)
  obtain ⟨s', hs'⟩ := ok_of_isOk (x := buildStmt (drillP (.key "orders.id")) .snowflake (widerQ ["revenue"])) (by decide +kernel)
  obtain ⟨h1, h2, h3, h4⟩ := drill_get (.key "orders.id")
  have hp : Proper (drillP (.key "orders.id")) (widerQ ["revenue", "cities"]) [drillRegion] [drillRevenue, drillCities] :=
    ⟨.cons h1 .nil, .cons h4 (.cons (wider_get _) .nil), by simp [drillRegion], by simp [drillRevenue, drillCities], trivial, trivial⟩
  have hp' : Proper (drillP (.key "orders.id")) (widerQ ["revenue"]) [drillRegion] [drillRevenue] :=
    ⟨.cons h1 .nil, .cons h4 .nil, by simp [drillRegion], by simp [drillRevenue], trivial, trivial⟩
  have hord : ∀ ms, OrdersRequested (drillP (.key "orders.id")) .snowflake (widerQ ("revenue" :: ms)) := by
    intro ms
    refine ⟨by simp [widerQ, drillQ], fun o ho => ?_⟩
    rw [wider_asked, List.mem_singleton] at ho
    subst ho
    exact ⟨by decide, "revenue", by simp [widerQ], rfl⟩
  have hall : ∀ ms, ShowsAll .snowflake (widerQ ("revenue" :: ms)) := by
    intro ms
    refine ⟨rfl, rfl, by simp [widerQ, drillQ], ?_⟩
    rw [wider_asked]
    decide
  have hgr : ∀ q ms, GroupsRows q [drillRegion] ms := by
    intro q ms
    refine .inr fun m _ d hd hpk => ?_
    rw [List.mem_singleton] at hd
    subst hd
    cases hpk
  obtain ⟨out, ho⟩ := C55_answered _ _ _ s hs _ _ hp rfl (by decide +kernel) (fun _ => hord _) (joinedDb lookDb lookFrom lookE (fun _ _ => .t))
  obtain ⟨out', ho'⟩ := C55_answered _ _ _ s' hs' _ _ hp' rfl (by decide +kernel) (fun _ => hord _) (joinedDb lookDb lookFrom lookE (fun _ _ => .t))
  have := C83_looked_up _ _ _ _ s s' hs hs' _ _ _ hp hp' (by simp) (hgr _ _) (hgr _ _) (hall _) (hall _) (drillP_labels _)
    (joinedDb lookDb lookFrom lookE (fun _ _ => .t)) rfl rfl (by
      intro views views' hv hv'
      have e1 : lookFrom views = ("orders", [lookJoin]) := if_pos ((wider_views _ _).1 hv)
      have e2 : lookFrom views' = ("orders", []) := if_neg ((wider_views _ _).2 hv')
      refine C81_looked_up _ _ _ _ _ _ _ _ _ _ _ _ (by rw [e1, e2]; exact look_up) ⟨rfl, rfl, fun i => Iff.rfl, ?_⟩ ?_ ?_
      · rintro i (hi | ⟨l, hl, -⟩)
        · exact absurd (show i ∈ [] from hi) List.not_mem_nil
        · exact absurd (show l ∈ [] from hl) List.not_mem_nil
      · rw [e2]
        intro d hd c hc
        rw [List.mem_singleton] at hd
        subst hd
        cases hc
        exact lookE_reads _ _ rfl _
      · rw [e2]
        intro m hm a ha
        rw [List.mem_singleton] at hm
        subst hm
        cases ha
        exact lookE_reads _ _ rfl _)
    (by
      intro f hf m hm views _
      rw [List.mem_singleton] at hf
      subst hf
      cases hm
      exact .inr ⟨by decide, .inl ⟨_, _, rfl, rfl⟩⟩) [0] (.cons rfl .nil) out out' ho ho'
  exact ⟨s, s', out, out', hs, hs', ho, ho', this⟩

end ML
