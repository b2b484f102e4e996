import Verif.Narrow.Spec
import Verif.Local.Props
import Verif.Drill.Props
/-
C90: a further filter narrows an answer, and the answers with a filter and with its opposite make up the answer without it.
-/
set_option autoImplicit false
namespace ML
open Spec

section
variable {ρ : Type}

theorem dedup_length_mono {a b : List ℚ} (h : ∀ x ∈ a, x ∈ b) : a.dedup.length ≤ b.dedup.length :=
  ((List.nodup_dedup _).subperm fun x hx => by
    rw [List.mem_dedup] at hx ⊢
    exact h x hx).length_le

/-- A metric over some of the rows. -/
theorem fewer_value (E : Engine ρ) (w : Warehouse) (fpk : FunctionalPk) (f : AnsField) (m : Measure) (hf : f.sql = .measure m) {G G' : List ρ} (h : G'.Sublist G) :
    FromFewer m.type (valueOf E w fpk f G') (valueOf E w fpk f G) := by
  have hsub : ∀ s : Scalar, (G'.filterMap (s.eval E)).Sublist (G.filterMap (s.eval E)) := fun s => h.filterMap _
  have hcount : ∀ s : Scalar, FromFewer .count ((Agg.count s).eval E G') ((Agg.count s).eval E G) := by
    intro s
    refine ⟨Nat.cast_nonneg _, ?_⟩
    show (((G'.filterMap (s.eval E)).length : ℕ) : ℚ) ≤ ((G.filterMap (s.eval E)).length : ℕ)
    exact_mod_cast (hsub s).length_le
  have hdist : ∀ s : Scalar, (G'.filterMap (s.eval E)).dedup.length ≤ (G.filterMap (s.eval E)).dedup.length :=
    fun s => dedup_length_mono fun x hx => (hsub s).subset hx
  have hparen : ∀ s : Scalar, FromFewer .count ((Agg.countDistinctParen s).eval E G') ((Agg.countDistinctParen s).eval E G) := by
    intro s
    refine ⟨Nat.cast_nonneg _, ?_⟩
    show (((G'.filterMap (s.eval E)).dedup.length : ℕ) : ℚ) ≤ ((G.filterMap (s.eval E)).dedup.length : ℕ)
    exact_mod_cast hdist s
  have hsym : ∀ sql pk : String, FromFewer .count ((symCount sql pk).eval E G') ((symCount sql pk).eval E G) := by
    intro sql pk
    have hz : ∀ H : List ρ, ((symCount sql pk).eval E H).getD 0 = (((H.filterMap ((Scalar.keyIfValue sql pk).eval E)).dedup.length : ℕ) : ℚ) := by
      intro H
      simp only [symCount, Agg.eval]
      split <;> simp_all
    show 0 ≤ ((symCount sql pk).eval E G').getD 0 ∧ ((symCount sql pk).eval E G').getD 0 ≤ ((symCount sql pk).eval E G).getD 0
    rw [hz, hz]
    exact ⟨Nat.cast_nonneg _, by exact_mod_cast hdist _⟩
  unfold valueOf
  rw [hf]
  simp only
  cases ht : m.type with
  | sum | sumDistinct | average | averageDistinct | median => trivial
  | count =>
    unfold aggregateSql
    rw [ht]
    simp only
    cases supportsSymmetric w with
    | false => exact hcount _
    | true =>
      simp only [if_true]
      cases needsSymmetric m fpk with
      | error e => exact ⟨le_refl _, le_refl _⟩
      | ok b =>
        cases b with
        | false => exact hcount _
        | true =>
          cases m.primaryKeyCount with
          | true => exact hparen _
          | false => exact hsym _ _
  | countDistinct =>
    unfold aggregateSql
    rw [ht]
    exact hparen _
  | max =>
    unfold aggregateSql
    rw [ht]
    intro x hx
    have hx : sqlMax (G'.filterMap ((Scalar.raw m.sql).eval E)) = some x := hx
    rw [drill_sqlMax_some] at hx
    have hmem := (hsub (.raw m.sql)).subset hx.1
    show ∃ y, sqlMax (G.filterMap ((Scalar.raw m.sql).eval E)) = some y ∧ x ≤ y
    cases hy : sqlMax (G.filterMap ((Scalar.raw m.sql).eval E)) with
    | none =>
      rw [sqlMax_eq_none] at hy
      rw [hy] at hmem
      cases hmem
    | some y => exact ⟨y, rfl, (drill_sqlMax_some.mp hy).2 x hmem⟩
  | min =>
    unfold aggregateSql
    rw [ht]
    intro x hx
    have hx : sqlMin (G'.filterMap ((Scalar.raw m.sql).eval E)) = some x := hx
    rw [drill_sqlMin_some] at hx
    have hmem := (hsub (.raw m.sql)).subset hx.1
    show ∃ y, sqlMin (G.filterMap ((Scalar.raw m.sql).eval E)) = some y ∧ y ≤ x
    cases hy : sqlMin (G.filterMap ((Scalar.raw m.sql).eval E)) with
    | none =>
      rw [sqlMin_eq_none] at hy
      rw [hy] at hmem
      cases hmem
    | some y => exact ⟨y, rfl, (drill_sqlMin_some.mp hy).2 x hmem⟩

/-- What passes with a further filter. -/
theorem adds_pass {D : Db ρ} {P : AnsProject} (hset : SetOfViews D P) (w : Warehouse) {views views' : List String} (hvv : ∀ v, v ∈ views ↔ v ∈ views')
    {q q' : Question} {x : FObj} (h : Adds q q' x) (r : ρ) : PassesWhere D P w views' q' r ↔ PassesWhere D P w views q r ∧ Holds D P w views q x r := by
  have e2 := (hset views views' hvv).2.1
  have hm : ∀ val : Nat → TV, meanings val [x] = [meaning val x] := fun val => rfl
  unfold PassesWhere Holds
  rw [h.fieldOf, access_pass hset w hvv q.fieldOf [r], ← e2, h.wheres, meanings_append, hm]
  simp only [List.mem_append, List.mem_singleton]
  constructor
  · rintro ⟨h1, h2⟩
    exact ⟨⟨h1, fun v hv => h2 v (.inl hv)⟩, h2 _ (.inr rfl)⟩
  · rintro ⟨⟨h1, h2⟩, h3⟩
    refine ⟨h1, fun v hv => ?_⟩
    rcases hv with hv | rfl
    · exact h2 v hv
    · exact h3

theorem line_metric {E : Engine ρ} {w : Warehouse} {fpk : FunctionalPk} {ms : List AnsField} {k : List Val} {n : Nat} (hn : k.length = n) (G : List ρ) {i : Nat} {f : AnsField}
    (hi : ms[i]? = some f) : (k ++ ms.map (fun m => valueOf E w fpk m G))[n + i]? = some (valueOf E w fpk f G) := by
  rw [List.getElem?_append_right (by omega), hn, Nat.add_sub_cancel_left, List.getElem?_map, hi]
  rfl

/-- C90 (a): every line of the query with a further filter is for dimension values that also have a line without the filter, on which counts and maxima are at least and minima at
most as large. -/
theorem C90_filter (P : AnsProject) (w : Warehouse) (q q' : Question) (s s' : Stmt) (hs : buildStmt P w q = .ok s) (hs' : buildStmt P w q' = .ok s')
    (ds ms : List AnsField) (hp : Proper P q ds ms) (hp' : Proper P q' ds ms) (hne : ds ≠ []) (hg : GroupsRows q ds ms) (hg' : GroupsRows q' ds ms)
    (hq : AsksAll w q) (hq' : AsksAll w q') (hl : LabelsDiffer P) (D : Db ρ) (hset : SetOfViews D P) (hviews : SameViews P q q') (x : FObj) (hx : Adds q q' x)
    (out out' : List (List Val)) (ha : s.Answers D out) (ha' : s'.Answers D out') :
    ∀ l' ∈ out', ∃ l ∈ out, l.take ds.length = l'.take ds.length ∧ ∀ i f m, ms[i]? = some f → f.sql = .measure m →
      ∃ a' a, l'[ds.length + i]? = some a' ∧ l[ds.length + i]? = some a ∧ FromFewer m.type a' a := by
  obtain ⟨views, hv, ht⟩ := answer_table P w q s hs ds ms hp hg hne ⟨hq.groups, hq.limit, hq.order⟩ hl D out ha
  obtain ⟨views', hv', ht'⟩ := answer_table P w q' s' hs' ds ms hp' hg' hne ⟨hq'.groups, hq'.limit, hq'.order⟩ hl D out' ha'
  have hvv := hviews views views' hv hv'
  obtain ⟨e1, e2, -⟩ := hset views views' hvv
  have hpass := fun r => adds_pass (D := D) hset w hvv hx r
  rw [having_none hq.havings] at ht
  rw [having_none hq'.havings, ← e1, ← e2] at ht'
  intro l' hl'
  obtain ⟨r, hr, h1, -, rfl⟩ := (table_iff ht' l').mp hl'
  have hk : (ds.map (fun d => valueOf D.engine w (P.fpk views) d [r])).length = ds.length := List.length_map ..
  refine ⟨_, (table_iff ht _).mpr ⟨r, hr, ((hpass r).mp h1).1, trivial, rfl⟩, ?_, fun i f m hi hf => ?_⟩
  · rw [List.take_left' hk, List.take_left' hk]
  · refine ⟨_, _, line_metric hk _ hi, line_metric hk _ hi, fewer_value D.engine w _ f m hf ?_⟩
    classical
    unfold behindRow
    refine List.monotone_filter_right _ fun y hy => ?_
    rw [decide_eq_true_iff] at hy ⊢
    exact ⟨((hpass y).mp hy.1).1, hy.2⟩

/-- C90 (b): the same for totals. -/
theorem C90_total (P : AnsProject) (w : Warehouse) (q q' : Question) (s s' : Stmt) (hs : buildStmt P w q = .ok s) (hs' : buildStmt P w q' = .ok s')
    (ms : List AnsField) (hp : Proper P q [] ms) (hp' : Proper P q' [] ms) (hq : AsksAll w q) (hq' : AsksAll w q') (D : Db ρ) (hset : SetOfViews D P)
    (hviews : SameViews P q q') (x : FObj) (hx : Adds q q' x) (out out' : List (List Val)) (ha : s.Answers D out) (ha' : s'.Answers D out') :
    ∃ l l', out = [l] ∧ out' = [l'] ∧ ∀ (i : Nat) (f : AnsField) (m : Measure), ms[i]? = some f → f.sql = .measure m → ∃ a' a, l'[i]? = some a' ∧ l[i]? = some a ∧ FromFewer m.type a' a := by
  obtain ⟨views, p, hv, hp1, h1, -⟩ := C55_total P w q s hs ms hp hq.groups (by rw [hq.limit]; simp) D out ha
  obtain ⟨views', p', hv', hp1', h1', -⟩ := C55_total P w q' s' hs' ms hp' hq'.groups (by rw [hq'.limit]; simp) D out' ha'
  have hvv := hviews views views' hv hv'
  obtain ⟨e1, e2, -⟩ := hset views views' hvv
  rw [having_none hq.havings] at h1
  rw [having_none hq'.havings, ← e1, ← e2] at h1'
  refine ⟨_, _, h1 trivial, h1' trivial, fun i f m hi hf => ?_⟩
  refine ⟨_, _, by rw [List.getElem?_map, hi]; rfl, by rw [List.getElem?_map, hi]; rfl, fewer_value D.engine w _ f m hf ?_⟩
  refine List.monotone_filter_right _ fun y hy => ?_
  rw [hp1'] at hy
  rw [hp1]
  exact ((adds_pass hset w hvv hx y).mp hy).1

theorem column_drop (n i : Nat) (lines : List (List Val)) : columnAt (n + i) lines = (lines.map (List.drop n)).map (fun l => (l[i]?).join) := by
  unfold columnAt
  rw [List.map_map]
  refine List.map_congr_left fun l _ => ?_
  rw [Function.comp, List.getElem?_drop]

theorem column_groups {E : Engine ρ} {w : Warehouse} {fpk : FunctionalPk} {ms : List AnsField} {n i : Nat} {f : AnsField} (hi : ms[i]? = some f) {lines : List (List Val)}
    {Gs : List (List ρ)} (h : lines.map (List.drop n) = Gs.map (fun G => ms.map (fun m => valueOf E w fpk m G))) :
    columnAt (n + i) lines = Gs.map (valueOf E w fpk f) := by
  rw [column_drop, h, List.map_map]
  refine List.map_congr_left fun G _ => ?_
  simp only [Function.comp, List.getElem?_map, hi, Option.map_some, Option.join_some]

/-- The rows that pass, split by the two filters. -/
theorem split_perm {rows : List ρ} {p p₁ p₂ : ρ → Bool} (h : ∀ r ∈ rows, p r = (p₁ r || p₂ r)) (hd : ∀ r ∈ rows, p₁ r = true → p₂ r = false) :
    (rows.filter p).Perm (rows.filter p₁ ++ rows.filter p₂) := by
  induction rows with
  | nil => exact List.Perm.refl _
  | cons r rows ih =>
    have ih := ih (fun r hr => h r (List.mem_cons_of_mem _ hr)) (fun r hr => hd r (List.mem_cons_of_mem _ hr))
    have h0 := h r List.mem_cons_self
    have h1 := hd r List.mem_cons_self
    cases e1 : p₁ r with
    | true =>
      rw [List.filter_cons_of_pos (by rw [h0, e1]; rfl), List.filter_cons_of_pos e1, List.filter_cons_of_neg (by rw [h1 e1]; decide)]
      exact ih.cons r
    | false =>
      cases e2 : p₂ r with
      | true =>
        rw [List.filter_cons_of_pos (by rw [h0, e2]; simp), List.filter_cons_of_neg (by rw [e1]; decide), List.filter_cons_of_pos e2]
        exact (ih.cons r).trans (List.perm_middle.symm)
      | false =>
        rw [List.filter_cons_of_neg (by rw [h0, e1, e2]; decide), List.filter_cons_of_neg (by rw [e1]; decide), List.filter_cons_of_neg (by rw [e2]; decide)]
        exact ih

/-- C90 (c): when of every row exactly one of two filters is true, the lines for dimension values in the two filtered answers come together to the line without them, for sums and
counts that are written without a correction, maxima and minima. -/
theorem C90_split (P : AnsProject) (w : Warehouse) (q q₁ q₂ : Question) (s s₁ s₂ : Stmt) (hs : buildStmt P w q = .ok s) (hs₁ : buildStmt P w q₁ = .ok s₁)
    (hs₂ : buildStmt P w q₂ = .ok s₂) (ds ms : List AnsField) (hp : Proper P q ds ms) (hp₁ : Proper P q₁ ds ms) (hp₂ : Proper P q₂ ds ms) (hne : ds ≠ [])
    (hg : GroupsRows q ds ms) (hg₁ : GroupsRows q₁ ds ms) (hg₂ : GroupsRows q₂ ds ms) (hq : AsksAll w q) (hq₁ : AsksAll w q₁) (hq₂ : AsksAll w q₂)
    (hl : LabelsDiffer P) (D : Db ρ) (hset : SetOfViews D P) (hv₁ : SameViews P q q₁) (hv₂ : SameViews P q q₂) (x y : FObj) (hx : Adds q q₁ x) (hy : Adds q q₂ y)
    (hxy : Splits D P w q x y) (i : Nat) (f : AnsField) (m : Measure) (hi : ms[i]? = some f) (hf : f.sql = .measure m)
    (hm : ∀ views, QueryViews P q views → AddsUp w (P.fpk views) m)
    (out out₁ out₂ : List (List Val)) (ha : s.Answers D out) (ha₁ : s₁.Answers D out₁) (ha₂ : s₂.Answers D out₂) :
    ∀ l ∈ out, l[ds.length + i]? = some (together m.type (columnAt (ds.length + i) ((out₁ ++ out₂).filter (fun k => k.take ds.length = l.take ds.length)))) := by
  obtain ⟨views, hv, ht⟩ := answer_table P w q s hs ds ms hp hg hne ⟨hq.groups, hq.limit, hq.order⟩ hl D out ha
  obtain ⟨views₁, hw₁, ht₁⟩ := answer_table P w q₁ s₁ hs₁ ds ms hp₁ hg₁ hne ⟨hq₁.groups, hq₁.limit, hq₁.order⟩ hl D out₁ ha₁
  obtain ⟨views₂, hw₂, ht₂⟩ := answer_table P w q₂ s₂ hs₂ ds ms hp₂ hg₂ hne ⟨hq₂.groups, hq₂.limit, hq₂.order⟩ hl D out₂ ha₂
  have hvv₁ := hv₁ views views₁ hv hw₁
  have hvv₂ := hv₂ views views₂ hv hw₂
  obtain ⟨e1, e2, -⟩ := hset views views₁ hvv₁
  obtain ⟨d1, d2, -⟩ := hset views views₂ hvv₂
  have hpass₁ := fun r => adds_pass (D := D) hset w hvv₁ hx r
  have hpass₂ := fun r => adds_pass (D := D) hset w hvv₂ hy r
  rw [having_none hq.havings] at ht
  rw [having_none hq₁.havings, ← e1, ← e2] at ht₁
  rw [having_none hq₂.havings, ← d1, ← d2] at ht₂
  intro l hl
  obtain ⟨r, hr, h1, -, rfl⟩ := (table_iff ht l).mp hl
  have hk : ∀ r, (ds.map (fun d => valueOf D.engine w (P.fpk views) d [r])).length = ds.length := fun r => List.length_map ..
  have htake : ∀ r, (ds.map (fun d => valueOf D.engine w (P.fpk views) d [r])).take ds.length = ds.map (fun d => valueOf D.engine w (P.fpk views) d [r]) :=
    fun r => List.take_of_length_le (le_of_eq (hk r))
  rw [line_metric (hk r) _ hi, List.take_left' (hk r)]
  classical
  obtain ⟨Gs₁, g1, g2⟩ := table_split ht₁ hk ds.length le_rfl (ds.map (fun d => valueOf D.engine w (P.fpk views) d [r]))
    (fun z => decide (PassesWhere D P w views₁ q₁ z ∧ ds.map (fun d => valueOf D.engine w (P.fpk views) d [z]) = ds.map (fun d => valueOf D.engine w (P.fpk views) d [r])))
    (fun z _ => by rw [decide_eq_true_iff, htake])
  obtain ⟨Gs₂, g3, g4⟩ := table_split ht₂ hk ds.length le_rfl (ds.map (fun d => valueOf D.engine w (P.fpk views) d [r]))
    (fun z => decide (PassesWhere D P w views₂ q₂ z ∧ ds.map (fun d => valueOf D.engine w (P.fpk views) d [z]) = ds.map (fun d => valueOf D.engine w (P.fpk views) d [r])))
    (fun z _ => by rw [decide_eq_true_iff, htake])
  have hcol : columnAt (ds.length + i) ((out₁ ++ out₂).filter (fun k => k.take ds.length = ds.map (fun d => valueOf D.engine w (P.fpk views) d [r]))) =
      (Gs₁ ++ Gs₂).map (valueOf D.engine w (P.fpk views) f) := by
    rw [List.filter_append]
    refine column_groups hi ?_
    rw [List.map_append, List.map_append, ← g2, ← g4]
  rw [hcol]
  congr 1
  refine addsUp_together D.engine w (P.fpk views) (P.fpk views) f m hf (hm views hv) (hm views hv) _ _ ?_
  refine List.Perm.filterMap _ ?_
  rw [List.flatten_append]
  refine List.Perm.trans ?_ (g1.append g3)
  unfold behindRow
  refine split_perm (fun z hz => ?_) (fun z hz h => ?_)
  · rw [Bool.eq_iff_iff, Bool.or_eq_true, decide_eq_true_iff, decide_eq_true_iff, decide_eq_true_iff, hpass₁, hpass₂]
    have := hxy views hv z hz
    tauto
  · rw [decide_eq_true_iff, hpass₁] at h
    rw [decide_eq_false_iff_not, hpass₂]
    have := hxy views hv z hz
    tauto

/-- C90 (d): the same for totals. -/
theorem C90_split_total (P : AnsProject) (w : Warehouse) (q q₁ q₂ : Question) (s s₁ s₂ : Stmt) (hs : buildStmt P w q = .ok s) (hs₁ : buildStmt P w q₁ = .ok s₁)
    (hs₂ : buildStmt P w q₂ = .ok s₂) (ms : List AnsField) (hp : Proper P q [] ms) (hp₁ : Proper P q₁ [] ms) (hp₂ : Proper P q₂ [] ms)
    (hq : AsksAll w q) (hq₁ : AsksAll w q₁) (hq₂ : AsksAll w q₂) (D : Db ρ) (hset : SetOfViews D P) (hv₁ : SameViews P q q₁) (hv₂ : SameViews P q q₂)
    (x y : FObj) (hx : Adds q q₁ x) (hy : Adds q q₂ y) (hxy : Splits D P w q x y) (i : Nat) (f : AnsField) (m : Measure) (hi : ms[i]? = some f) (hf : f.sql = .measure m)
    (hm : ∀ views, QueryViews P q views → AddsUp w (P.fpk views) m)
    (out out₁ out₂ : List (List Val)) (ha : s.Answers D out) (ha₁ : s₁.Answers D out₁) (ha₂ : s₂.Answers D out₂) :
    ∃ l, out = [l] ∧ out₁.length = 1 ∧ out₂.length = 1 ∧ l[i]? = some (together m.type (columnAt i (out₁ ++ out₂))) := by
  obtain ⟨views, p, hv, hp1, h1, -⟩ := C55_total P w q s hs ms hp hq.groups (by rw [hq.limit]; simp) D out ha
  obtain ⟨views₁, p₁, hw₁, hp1₁, h1₁, -⟩ := C55_total P w q₁ s₁ hs₁ ms hp₁ hq₁.groups (by rw [hq₁.limit]; simp) D out₁ ha₁
  obtain ⟨views₂, p₂, hw₂, hp1₂, h1₂, -⟩ := C55_total P w q₂ s₂ hs₂ ms hp₂ hq₂.groups (by rw [hq₂.limit]; simp) D out₂ ha₂
  have hvv₁ := hv₁ views views₁ hv hw₁
  have hvv₂ := hv₂ views views₂ hv hw₂
  obtain ⟨e1, e2, -⟩ := hset views views₁ hvv₁
  obtain ⟨d1, d2, -⟩ := hset views views₂ hvv₂
  have hpass₁ := fun r => adds_pass (D := D) hset w hvv₁ hx r
  have hpass₂ := fun r => adds_pass (D := D) hset w hvv₂ hy r
  rw [having_none hq.havings] at h1
  rw [having_none hq₁.havings, ← e1, ← e2] at h1₁
  rw [having_none hq₂.havings, ← d1, ← d2] at h1₂
  have h1₁ := h1₁ trivial
  have h1₂ := h1₂ trivial
  refine ⟨_, h1 trivial, by rw [h1₁]; rfl, by rw [h1₂]; rfl, ?_⟩
  have hcol : columnAt i (out₁ ++ out₂) = [(D.rows views).filter p₁, (D.rows views).filter p₂].map (valueOf D.engine w (P.fpk views) f) := by
    rw [h1₁, h1₂]
    simp only [columnAt, List.singleton_append, List.map_cons, List.map_nil, List.getElem?_map, hi, Option.map_some, Option.join_some]
  rw [hcol, List.getElem?_map, hi, Option.map_some]
  congr 1
  refine addsUp_together D.engine w (P.fpk views) (P.fpk views) f m hf (hm views hv) (hm views hv) _ _ ?_
  refine List.Perm.filterMap _ ?_
  rw [List.flatten_cons, List.flatten_cons, List.flatten_nil, List.append_nil]
  refine split_perm (fun z hz => ?_) (fun z hz h => ?_)
  · rw [Bool.eq_iff_iff, Bool.or_eq_true, hp1, hp1₁, hp1₂, hpass₁, hpass₂]
    have := hxy views hv z hz
    tauto
  · rw [hp1₁, hpass₁] at h
    rw [Bool.eq_false_iff, Ne, hp1₂, hpass₂]
    have := hxy views hv z hz
    tauto

end
end ML
