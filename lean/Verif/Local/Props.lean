import Verif.Local.Spec
import Verif.Slice.Props
import Verif.SymAgg.Props
import Verif.Drill.Lemmas
import Mathlib.Data.List.Dedup
/-
C85: a line only depends on the rows behind it.
-/
set_option autoImplicit false
namespace ML
open Spec

section
variable {ρ : Type}

/-- No aggregate depends on the order of the rows. -/
theorem agg_perm (E : Engine ρ) {G G' : List ρ} (h : G.Perm G') (a : Agg) : a.eval E G = a.eval E G' := by
  have hf : ∀ s : Scalar, (G.filterMap (s.eval E)).Perm (G'.filterMap (s.eval E)) := fun s => h.filterMap _
  induction a with
  | sum s => exact drill_sqlSum_perm (hf s)
  | sumDistinct s => exact drill_sqlSum_perm (hf s).dedup
  | count s => exact congrArg (fun n : Nat => some (n : ℚ)) (hf s).length_eq
  | countDistinct s => exact congrArg (fun n : Nat => some (n : ℚ)) (hf s).dedup.length_eq
  | countDistinctParen s => exact congrArg (fun n : Nat => some (n : ℚ)) (hf s).dedup.length_eq
  | avg s =>
    have h0 : G.filterMap (s.eval E) = [] ↔ G'.filterMap (s.eval E) = [] :=
      ⟨fun c => List.perm_nil.mp (c ▸ (hf s).symm), fun c => List.perm_nil.mp (c ▸ hf s)⟩
    simp only [Agg.eval, (hf s).sum_eq, (hf s).length_eq, h0]
  | median s => exact median_perm (hf s)
  | max s => exact sqlMax_perm (hf s)
  | min s => exact sqlMin_perm (hf s)
  | minus a b iha ihb => rw [Agg.eval, Agg.eval, iha, ihb]
  | scaledBack a ih => rw [Agg.eval, Agg.eval, ih]
  | nullIfZero a ih => rw [Agg.eval, Agg.eval, ih]
  | ratio a b iha ihb => rw [Agg.eval, Agg.eval, iha, ihb]

theorem measure_perm (E : Engine ρ) (w : Warehouse) (fpk : FunctionalPk) {f : AnsField} {m : Measure} (hf : f.sql = .measure m) {G G' : List ρ} (h : G.Perm G') :
    valueOf E w fpk f G = valueOf E w fpk f G' := by
  unfold valueOf
  simp only [hf]
  split
  · exact agg_perm E h _
  · rfl

theorem having_perm {D D' : Db ρ} (hw : SameWarehouse D D') {P : AnsProject} {w : Warehouse} {views : List String} {q : Question} (hm : HavingsOnMetrics P q) {G G' : List ρ}
    (h : G.Perm G') : PassesHaving D P w views q G ↔ PassesHaving D' P w views q G' := by
  unfold PassesHaving
  rw [meanings_congr _ (compared D' P w (P.fpk views) q.fieldOf G') q.havings]
  intro l hl i hi
  obtain ⟨f, m, hf, hfm⟩ := hm l hl i hi
  unfold compared
  rw [hf]
  simp only [hfm]
  rw [measure_perm D.engine w (P.fpk views) hfm h, hw.engine, hw.test]

theorem where_same {D D' : Db ρ} (hw : SameWarehouse D D') (P : AnsProject) (w : Warehouse) (views : List String) (q : Question) :
    PassesWhere D' P w views q = PassesWhere D P w views q := by
  have hc : ∀ fpk G, compared D' P w fpk q.fieldOf G = compared D P w fpk q.fieldOf G := by
    intro fpk G
    funext i
    unfold compared
    rw [hw.engine, hw.test]
  funext r
  unfold PassesWhere
  rw [hc]

theorem where_views {D : Db ρ} {P : AnsProject} (hset : SetOfViews D P) (w : Warehouse) {views views' : List String} (hvv : ∀ v, v ∈ views ↔ v ∈ views') (q : Question) :
    PassesWhere D P w views' q = PassesWhere D P w views q := by
  obtain ⟨-, e2, -⟩ := hset views views' hvv
  funext r
  unfold PassesWhere
  rw [access_pass hset w hvv q.fieldOf [r], ← e2]

theorem behindRow_behind (rows : List ρ) (pass : ρ → Prop) (dims : ρ → List Val) (r : ρ) : Behind pass dims rows (dims r) (behindRow rows pass dims r) := by
  classical
  exact ⟨fun x => decide (pass x ∧ dims x = dims r), fun x _ => decide_eq_true_iff, rfl⟩

/-- The tables of the two states. -/
theorem two_states (P : AnsProject) (w : Warehouse) (q : Question) (s : Stmt) (hs : buildStmt P w q = .ok s) (ds ms : List AnsField) (hp : Proper P q ds ms) (hne : ds ≠ [])
    (hg : GroupsRows q ds ms) (hq : ShowsAll w q) (hl : LabelsDiffer P) (D D' : Db ρ) (hw : SameWarehouse D D')
    (hset : SetOfViews D' P) (out out' : List (List Val)) (ha : s.Answers D out) (ha' : s.Answers D' out') :
    ∃ views, QueryViews P q views ∧
      IsTable (D.rows views) (PassesWhere D P w views q) (dimensionsOf D w (P.fpk views) ds)
        (fun G => ms.map (fun m => valueOf D.engine w (P.fpk views) m G)) (PassesHaving D P w views q) ds.length out ∧
      IsTable (D'.rows views) (PassesWhere D P w views q) (dimensionsOf D w (P.fpk views) ds)
        (fun G => ms.map (fun m => valueOf D.engine w (P.fpk views) m G)) (PassesHaving D' P w views q) ds.length out' := by
  obtain ⟨views, hv, ht⟩ := answer_table P w q s hs ds ms hp hg hne hq hl D out ha
  obtain ⟨views', hv', ht'⟩ := answer_table P w q s hs ds ms hp hg hne hq hl D' out' ha'
  have hvv : ∀ v, v ∈ views ↔ v ∈ views' := by
    intro v
    obtain ⟨fs, h1, -, h2⟩ := hv
    obtain ⟨fs', h1', -, h2'⟩ := hv'
    rw [h2, h2', h1.unique h1']
  obtain ⟨e1, e2, -⟩ := hset views views' hvv
  have hh : PassesHaving D' P w views' q = PassesHaving D' P w views q := by
    funext G
    unfold PassesHaving
    rw [← e2]
  rw [← e1, ← e2, where_views hset w hvv, where_same hw, hh, hw.engine] at ht'
  exact ⟨views, hv, ht, ht'⟩

/-- C85 (a): a line only depends on the rows behind it, and not on their order. When the rows that pass the filters and have given values of the dimensions are the same in two states
of the data, the line of those values is in both answers, or in none, and shows the same. -/
theorem C85_line (P : AnsProject) (w : Warehouse) (q : Question) (s : Stmt) (hs : buildStmt P w q = .ok s) (ds ms : List AnsField) (hp : Proper P q ds ms) (hne : ds ≠ [])
    (hg : GroupsRows q ds ms) (hq : ShowsAll w q) (hl : LabelsDiffer P) (hm : HavingsOnMetrics P q) (D D' : Db ρ) (hw : SameWarehouse D D')
    (hset : SetOfViews D' P) (k : List Val) (hk : k.length = ds.length) (hsame : SameBehind D D' P w q ds k)
    (out out' : List (List Val)) (ha : s.Answers D out) (ha' : s.Answers D' out') (rest : List Val) : k ++ rest ∈ out ↔ k ++ rest ∈ out' := by
  obtain ⟨views, hv, ht, ht'⟩ := two_states P w q s hs ds ms hp hne hg hq hl D D' hw hset out out' ha ha'
  have hdims : dimensionsOf D' w (P.fpk views) ds = dimensionsOf D w (P.fpk views) ds := by
    funext r
    unfold dimensionsOf
    rw [hw.engine]
  have hlen : ∀ r, (dimensionsOf D w (P.fpk views) ds r).length = k.length := by
    intro r
    rw [hk]
    simp [dimensionsOf]
  -- one direction, for two tables
  have key : ∀ (rows rows' : List ρ) (pg pg' : List ρ → Prop) (o o' : List (List Val)),
      IsTable rows (PassesWhere D P w views q) (dimensionsOf D w (P.fpk views) ds) (fun G => ms.map (fun m => valueOf D.engine w (P.fpk views) m G)) pg ds.length o →
      IsTable rows' (PassesWhere D P w views q) (dimensionsOf D w (P.fpk views) ds) (fun G => ms.map (fun m => valueOf D.engine w (P.fpk views) m G)) pg' ds.length o' →
      (∀ G G', Behind (PassesWhere D P w views q) (dimensionsOf D w (P.fpk views) ds) rows k G →
        Behind (PassesWhere D P w views q) (dimensionsOf D w (P.fpk views) ds) rows' k G' → G.Perm G') →
      (∀ G G', G.Perm G' → (pg G ↔ pg' G')) → k ++ rest ∈ o → k ++ rest ∈ o' := by
    intro rows rows' pg pg' o o' t t' hperm hpg hmem
    obtain ⟨r, hr, hpass, hgr, heq⟩ := (table_iff t _).mp hmem
    obtain ⟨hk1, hk2⟩ := List.append_inj heq (hlen r).symm
    have hb := behindRow_behind rows (PassesWhere D P w views q) (dimensionsOf D w (P.fpk views) ds) r
    have hb' := behindRow_behind rows' (PassesWhere D P w views q) (dimensionsOf D w (P.fpk views) ds) r
    rw [← hk1] at hb hb'
    have hpm := hperm _ _ hb hb'
    have hin : r ∈ behindRow rows (PassesWhere D P w views q) (dimensionsOf D w (P.fpk views) ds) r := by
      classical
      exact List.mem_filter.mpr ⟨hr, decide_eq_true ⟨hpass, rfl⟩⟩
    have hin' := List.mem_filter.mp (hpm.mem_iff.mp hin)
    refine (table_iff t' _).mpr ⟨r, hin'.1, hpass, (hpg _ _ hpm).mp hgr, ?_⟩
    rw [hk1, hk2]
    congr 1
    refine List.map_congr_left fun m hm => ?_
    obtain ⟨a, ham⟩ := hp.measure m hm
    exact measure_perm _ _ _ ham hpm
  have hs1 := hsame views
  rw [where_same hw, hdims] at hs1
  constructor
  · exact key _ _ _ _ _ _ ht ht' (fun G G' => hs1 G G' hv) (fun G G' h => having_perm hw hm h)
  · exact key _ _ _ _ _ _ ht' ht (fun G G' h h' => (hs1 G' G hv h' h).symm) (fun G G' h => (having_perm hw hm h.symm).symm)

/-- C85 (b): the order in which rows are stored does not matter. -/
theorem C85_storage (P : AnsProject) (w : Warehouse) (q : Question) (s : Stmt) (hs : buildStmt P w q = .ok s) (ds ms : List AnsField) (hp : Proper P q ds ms) (hne : ds ≠ [])
    (hg : GroupsRows q ds ms) (hq : ShowsAll w q) (hl : LabelsDiffer P) (hm : HavingsOnMetrics P q) (D D' : Db ρ) (hw : SameWarehouse D D')
    (hset : SetOfViews D' P) (hrows : ∀ views, (D.rows views).Perm (D'.rows views))
    (out out' : List (List Val)) (ha : s.Answers D out) (ha' : s.Answers D' out') : out.Perm out' := by
  obtain ⟨views, hv, ht, ht'⟩ := two_states P w q s hs ds ms hp hne hg hq hl D D' hw hset out out' ha ha'
  refine (List.perm_ext_iff_of_nodup (table_nodup ht) (table_nodup ht')).mpr fun l => ?_
  have hsame : ∀ k, SameBehind D D' P w q ds k := by
    rintro k views G G' - ⟨p, hp1, rfl⟩ ⟨p', hp1', rfl⟩
    have hd : dimensionsOf D' w (P.fpk views) ds = dimensionsOf D w (P.fpk views) ds := by
      funext r
      unfold dimensionsOf
      rw [hw.engine]
    rw [where_same hw, hd] at hp1'
    have : (D.rows views).filter p = (D.rows views).filter p' := by
      refine List.filter_congr fun x hx => ?_
      rw [Bool.eq_iff_iff, hp1 x hx, hp1' x ((hrows views).mem_iff.mp hx)]
    rw [this]
    exact (hrows views).filter _
  have hsplit : ∀ rows pg (o : List (List Val)), IsTable rows (PassesWhere D P w views q) (dimensionsOf D w (P.fpk views) ds)
      (fun G => ms.map (fun m => valueOf D.engine w (P.fpk views) m G)) pg ds.length o → l ∈ o → ∃ k rest, k.length = ds.length ∧ l = k ++ rest := by
    intro rows pg o t hl
    obtain ⟨r, -, -, -, rfl⟩ := (table_iff t _).mp hl
    exact ⟨_, _, by simp [dimensionsOf], rfl⟩
  constructor
  · intro h
    obtain ⟨k, rest, hk, rfl⟩ := hsplit _ _ _ ht h
    exact (C85_line P w q s hs ds ms hp hne hg hq hl hm D D' hw hset k hk (hsame k) out out' ha ha' rest).mp h
  · intro h
    obtain ⟨k, rest, hk, rfl⟩ := hsplit _ _ _ ht' h
    exact (C85_line P w q s hs ds ms hp hne hg hq hl hm D D' hw hset k hk (hsame k) out out' ha ha' rest).mpr h

/-- C85 (c): new rows only change the lines they belong to. When the rows that are new in the second state fail the filters or have other values of the dimensions than `k`, the line
of `k` stays as it is. -/
theorem C85_new_rows (P : AnsProject) (w : Warehouse) (q : Question) (s : Stmt) (hs : buildStmt P w q = .ok s) (ds ms : List AnsField) (hp : Proper P q ds ms) (hne : ds ≠ [])
    (hg : GroupsRows q ds ms) (hq : ShowsAll w q) (hl : LabelsDiffer P) (hm : HavingsOnMetrics P q) (D D' : Db ρ) (hw : SameWarehouse D D')
    (hset : SetOfViews D' P) (k : List Val) (hk : k.length = ds.length) (new : List String → List ρ) (hrows : ∀ views, (D'.rows views).Perm (D.rows views ++ new views))
    (hnew : ∀ views, QueryViews P q views → ∀ r ∈ new views, ¬ PassesWhere D P w views q r ∨ dimensionsOf D w (P.fpk views) ds r ≠ k)
    (out out' : List (List Val)) (ha : s.Answers D out) (ha' : s.Answers D' out') (rest : List Val) : k ++ rest ∈ out ↔ k ++ rest ∈ out' := by
  refine C85_line P w q s hs ds ms hp hne hg hq hl hm D D' hw hset k hk ?_ out out' ha ha' rest
  rintro views G G' hv ⟨p, hp1, rfl⟩ ⟨p', hp1', rfl⟩
  have hd : dimensionsOf D' w (P.fpk views) ds = dimensionsOf D w (P.fpk views) ds := by
    funext r
    unfold dimensionsOf
    rw [hw.engine]
  rw [where_same hw, hd] at hp1'
  refine List.Perm.trans ?_ ((hrows views).symm.filter _)
  have hnil : (new views).filter p' = [] := by
    refine List.filter_eq_nil_iff.mpr fun x hx h => ?_
    obtain ⟨h1, h2⟩ := (hp1' x ((hrows views).mem_iff.mpr (List.mem_append_right _ hx))).mp h
    rcases hnew views hv x hx with h' | h'
    · exact h' h1
    · exact h' h2
  rw [List.filter_append, hnil, List.append_nil]
  refine List.Perm.of_eq (List.filter_congr fun x hx => ?_)
  rw [Bool.eq_iff_iff, hp1 x hx, hp1' x ((hrows views).mem_iff.mpr (List.mem_append_left _ hx))]

/-- C85 (d): for totals, too, the order in which rows are stored does not matter, and rows that fail the filters change nothing. -/
theorem C85_total (P : AnsProject) (w : Warehouse) (q : Question) (s : Stmt) (hs : buildStmt P w q = .ok s) (ms : List AnsField) (hp : Proper P q [] ms)
    (hgf : q.groupFilters = []) (hz : q.limit ≠ some 0) (hm : HavingsOnMetrics P q) (D D' : Db ρ) (hw : SameWarehouse D D')
    (hset : SetOfViews D' P) (new : List String → List ρ) (hrows : ∀ views, (D'.rows views).Perm (D.rows views ++ new views))
    (hnew : ∀ views, QueryViews P q views → ∀ r ∈ new views, ¬ PassesWhere D P w views q r)
    (out out' : List (List Val)) (ha : s.Answers D out) (ha' : s.Answers D' out') : out = out' := by
  obtain ⟨views, p, hv, hp1, h1, h2⟩ := C55_total P w q s hs ms hp hgf hz D out ha
  obtain ⟨views', p', hv', hp1', h1', h2'⟩ := C55_total P w q s hs ms hp hgf hz D' out' ha'
  have hvv : ∀ v, v ∈ views ↔ v ∈ views' := by
    intro v
    obtain ⟨fs, h1, -, h2⟩ := hv
    obtain ⟨fs', h1', -, h2'⟩ := hv'
    rw [h2, h2', h1.unique h1']
  obtain ⟨e1, e2, -⟩ := hset views views' hvv
  rw [where_views hset w hvv, where_same hw] at hp1'
  have hpp : p' = p := by
    funext r
    rw [Bool.eq_iff_iff, hp1, hp1']
  subst hpp
  have hh : PassesHaving D' P w views' q = PassesHaving D' P w views q := by
    funext G
    unfold PassesHaving
    rw [← e2]
  rw [← e1, ← e2, hh, hw.engine] at h1'
  rw [← e1, hh] at h2'
  have hperm : ((D.rows views).filter p').Perm ((D'.rows views).filter p') := by
    refine List.Perm.trans ?_ ((hrows views).symm.filter _)
    have hnil : (new views).filter p' = [] := List.filter_eq_nil_iff.mpr fun x hx h => hnew views hv x hx ((hp1 x).mp h)
    rw [List.filter_append, hnil, List.append_nil]
  have hval : ms.map (fun m => valueOf D.engine w (P.fpk views) m ((D.rows views).filter p')) = ms.map (fun m => valueOf D.engine w (P.fpk views) m ((D'.rows views).filter p')) := by
    refine List.map_congr_left fun m hm => ?_
    obtain ⟨a, ham⟩ := hp.measure m hm
    exact measure_perm _ _ _ ham hperm
  by_cases hhav : PassesHaving D P w views q ((D.rows views).filter p')
  · rw [h1 hhav, h1' ((having_perm hw hm hperm).mp hhav), hval]
  · rw [h2 hhav, h2' (fun c => hhav ((having_perm hw hm hperm).mpr c))]

end
end ML
