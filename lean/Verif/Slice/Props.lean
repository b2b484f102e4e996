import Verif.Slice.Spec
import Verif.Answer.PropsMore
import Verif.MergeStmt.Props
/-
C82: filters on what is shown select lines.
C83: what else is asked for changes no number.
-/
set_option autoImplicit false
namespace ML
open Spec

section
variable {ρ : Type}

open Classical in
/-- The rows behind the line of row `r` (for the proofs; it models no file in /repo). -/
noncomputable def behindRow (rows : List ρ) (pass : ρ → Prop) (dims : ρ → List Val) (r : ρ) : List ρ :=
  rows.filter (fun x => decide (pass x ∧ dims x = dims r))

/-- The lines of a table, one by one. -/
theorem table_iff {rows : List ρ} {pass : ρ → Prop} {dims : ρ → List Val} {metrics : List ρ → List Val} {pg : List ρ → Prop} {n : Nat} {lines : List (List Val)}
    (h : IsTable rows pass dims metrics pg n lines) (l : List Val) :
    l ∈ lines ↔ ∃ r ∈ rows, pass r ∧ pg (behindRow rows pass dims r) ∧ l = dims r ++ metrics (behindRow rows pass dims r) := by
  classical
  have huniq : ∀ k G, Behind pass dims rows k G → ∀ r, dims r = k → G = behindRow rows pass dims r := by
    rintro k G ⟨p, hp, rfl⟩ r rfl
    refine List.filter_congr fun x hx => ?_
    rw [Bool.eq_iff_iff, hp x hx, decide_eq_true_iff]
  constructor
  · intro hl
    obtain ⟨k, G, -, hG, hB, hpg, rfl⟩ := h.sound l hl
    obtain ⟨r, hr⟩ := List.exists_mem_of_ne_nil _ hG
    have hB' := hB
    obtain ⟨p, hp, rfl⟩ := hB'
    obtain ⟨h1, h2⟩ := List.mem_filter.mp hr
    obtain ⟨h3, h4⟩ := (hp r h1).mp h2
    rw [huniq k _ hB r h4] at hpg ⊢
    exact ⟨r, h1, h3, hpg, by rw [h4]⟩
  · rintro ⟨r, hr, hp, hpg, rfl⟩
    obtain ⟨G, hB, hG⟩ := h.complete r hr hp
    rw [huniq _ G hB r rfl] at hG
    exact hG hpg

theorem table_nodup {rows : List ρ} {pass : ρ → Prop} {dims : ρ → List Val} {metrics : List ρ → List Val} {pg : List ρ → Prop} {n : Nat} {lines : List (List Val)}
    (h : IsTable rows pass dims metrics pg n lines) : lines.Nodup := h.once.of_map _

/-- The table of a query that shows all lines. -/
theorem answer_table (P : AnsProject) (w : Warehouse) (q : Question) (s : Stmt) (hs : buildStmt P w q = .ok s) (ds ms : List AnsField) (hp : Proper P q ds ms)
    (hg : GroupsRows q ds ms) (hne : ds ≠ []) (hq : ShowsAll w q) (hl : LabelsDiffer P) (D : Db ρ) (out : List (List Val)) (ha : s.Answers D out) :
    ∃ views, QueryViews P q views ∧
      IsTable (D.rows views) (PassesWhere D P w views q) (fun r => ds.map (fun d => valueOf D.engine w (P.fpk views) d [r]))
        (fun G => ms.map (fun m => valueOf D.engine w (P.fpk views) m G)) (PassesHaving D P w views q) ds.length out := by
  obtain ⟨views, lines, hv, ht, -, hlim⟩ := C55_table P w q s hs ds ms hp hg hne hq.groups hl hq.order.1 hq.order.2 (.inl (by rw [hq.limit]; simp)) D out ha
  rw [hq.limit] at hlim
  have hlim : out = lines := hlim
  subst hlim
  exact ⟨views, hv, ht⟩

theorem access_pass {D : Db ρ} {P : AnsProject} (hset : SetOfViews D P) (w : Warehouse) {views views' : List String} (hvv : ∀ v, v ∈ views ↔ v ∈ views')
    (fieldOf : Nat → String) (G : List ρ) :
    (∀ i ∈ P.access views', compared D P w (P.fpk views') fieldOf G i = .t) ↔ ∀ i ∈ P.access views, compared D P w (P.fpk views) fieldOf G i = .t := by
  obtain ⟨-, h2, h3⟩ := hset views views' hvv
  rw [← h2]
  constructor
  · intro h i hi
    exact h i ((h3 i).mp hi)
  · intro h i hi
    exact h i ((h3 i).mpr hi)

theorem meanings_append (val : Nat → TV) (xs ys : List FObj) : meanings val (xs ++ ys) = meanings val xs ++ meanings val ys := by
  induction xs with
  | nil => rfl
  | cons x xs ih => rw [List.cons_append, meanings, meanings, ih]; rfl

/-- The value a line shows of a dimension. -/
theorem shown_dimension (E : Engine ρ) (w : Warehouse) (fpk : FunctionalPk) (ds : List AnsField) (r : ρ) (rest : List Val) (j : Nat) (d : AnsField) (hj : ds[j]? = some d) :
    ((ds.map (fun d => valueOf E w fpk d [r]) ++ rest)[j]?).join = valueOf E w fpk d [r] := by
  have hlt : j < ds.length := (List.getElem?_eq_some_iff.mp hj).1
  rw [List.getElem?_append_left (by simpa using hlt), List.getElem?_map, hj]
  rfl

/-- The value a line shows of a metric. -/
theorem shown_metric (E : Engine ρ) (w : Warehouse) (fpk : FunctionalPk) (ms : List AnsField) (G : List ρ) (k : List Val) (n : Nat) (hn : k.length = n) (j : Nat) (m : AnsField)
    (hj : ms[j]? = some m) : ((k ++ ms.map (fun m => valueOf E w fpk m G))[n + j]?).join = valueOf E w fpk m G := by
  rw [List.getElem?_append_right (by omega), hn, Nat.add_sub_cancel_left, List.getElem?_map, hj]
  rfl

/-- C82 (a): a filter on dimensions that are shown selects lines. The query with the filter has exactly the lines of the query without it of whose shown values the filter is
true: the metrics, of whatever kind, are the same. -/
theorem C82_where (P : AnsProject) (w : Warehouse) (q q' : Question) (s s' : Stmt) (hs : buildStmt P w q = .ok s) (hs' : buildStmt P w q' = .ok s')
    (ds ms : List AnsField) (hp : Proper P q ds ms) (hp' : Proper P q' ds ms) (hne : ds ≠ []) (hg : GroupsRows q ds ms) (hg' : GroupsRows q' ds ms)
    (hq : ShowsAll w q) (hq' : ShowsAll w q') (hl : LabelsDiffer P) (D : Db ρ) (hset : SetOfViews D P) (hviews : SameViews P q q')
    (x : FObj) (hx : q'.wheres = q.wheres ++ [x]) (hh : q'.havings = q.havings) (hfo : q'.fieldOf = q.fieldOf)
    (pos : Nat → Nat) (hon : OnShown P q ds pos x) (out out' : List (List Val)) (ha : s.Answers D out) (ha' : s'.Answers D out') :
    out'.Perm (out.filter (fun l => TrueOf D pos x l)) := by
  obtain ⟨views, hv, ht⟩ := answer_table P w q s hs ds ms hp hg hne hq hl D out ha
  obtain ⟨views', hv', ht'⟩ := answer_table P w q' s' hs' ds ms hp' hg' hne hq' hl D out' ha'
  have hvv := hviews views views' hv hv'
  obtain ⟨e1, e2, e3⟩ := hset views views' hvv
  have hacc := fun r : ρ => access_pass hset w hvv q.fieldOf [r]
  have hhav : PassesHaving D P w views' q' = PassesHaving D P w views q := by
    funext G
    unfold PassesHaving
    rw [← e2, hh, hfo]
  have hcmp : ∀ r rest, meaning (compared D P w (P.fpk views) q.fieldOf [r]) x = .t ↔
      TrueOf D pos x (ds.map (fun d => valueOf D.engine w (P.fpk views) d [r]) ++ rest) := by
    intro r rest
    unfold TrueOf
    rw [meaning_congr _ _ x (fun l hl i hi => ?_)]
    obtain ⟨d, hd, hget⟩ := hon l hl i hi
    obtain ⟨sq, hsq⟩ := hp.dimension d (List.mem_of_getElem? hd)
    rw [shown_dimension _ _ _ _ _ _ _ _ hd]
    unfold compared
    rw [hget]
    simp only [hsq]
  have hpass : ∀ r, PassesWhere D P w views' q' r ↔ PassesWhere D P w views q r ∧ meaning (compared D P w (P.fpk views) q.fieldOf [r]) x = .t := by
    intro r
    have hm : ∀ val : Nat → TV, meanings val [x] = [meaning val x] := fun val => rfl
    unfold PassesWhere
    rw [hfo, hacc r, ← e2, hx, meanings_append, hm]
    simp only [List.mem_append, List.mem_singleton]
    constructor
    · rintro ⟨h1, h2⟩
      exact ⟨⟨h1, fun v hv => h2 v (.inl hv)⟩, h2 _ (.inr rfl)⟩
    · rintro ⟨⟨h1, h2⟩, h3⟩
      refine ⟨h1, fun v hv => ?_⟩
      rcases hv with hv | rfl
      · exact h2 v hv
      · exact h3
  rw [← e1, ← e2, hhav] at ht'
  refine (List.perm_ext_iff_of_nodup (table_nodup ht') ((table_nodup ht).filter _)).mpr fun l => ?_
  rw [List.mem_filter, table_iff ht', table_iff ht, decide_eq_true_iff]
  have hsame : ∀ r, meaning (compared D P w (P.fpk views) q.fieldOf [r]) x = .t →
      behindRow (D.rows views) (PassesWhere D P w views' q') (fun r => ds.map (fun d => valueOf D.engine w (P.fpk views) d [r])) r =
      behindRow (D.rows views) (PassesWhere D P w views q) (fun r => ds.map (fun d => valueOf D.engine w (P.fpk views) d [r])) r := by
    intro r hr
    classical
    refine List.filter_congr fun y _ => ?_
    rw [Bool.eq_iff_iff, decide_eq_true_iff, decide_eq_true_iff, hpass]
    constructor
    · rintro ⟨⟨h1, -⟩, h2⟩
      exact ⟨h1, h2⟩
    · rintro ⟨h1, h2⟩
      refine ⟨⟨h1, ?_⟩, h2⟩
      have h3 := (hcmp r []).mp hr
      have h2 : ds.map (fun d => valueOf D.engine w (P.fpk views) d [y]) = ds.map (fun d => valueOf D.engine w (P.fpk views) d [r]) := h2
      rw [← h2] at h3
      exact (hcmp y []).mpr h3
  constructor
  · rintro ⟨r, hr, h1, h2, rfl⟩
    obtain ⟨h1, hx'⟩ := (hpass r).mp h1
    rw [hsame r hx'] at h2 ⊢
    exact ⟨⟨r, hr, h1, h2, rfl⟩, (hcmp r _).mp hx'⟩
  · rintro ⟨⟨r, hr, h1, h2, rfl⟩, h3⟩
    have hx' := (hcmp r _).mpr h3
    rw [← hsame r hx'] at h2 ⊢
    exact ⟨r, hr, (hpass r).mpr ⟨h1, hx'⟩, h2, rfl⟩

/-- C82 (b): a filter on metrics that are shown selects lines. -/
theorem C82_having (P : AnsProject) (w : Warehouse) (q q' : Question) (s s' : Stmt) (hs : buildStmt P w q = .ok s) (hs' : buildStmt P w q' = .ok s')
    (ds ms : List AnsField) (hp : Proper P q ds ms) (hp' : Proper P q' ds ms) (hne : ds ≠ []) (hg : GroupsRows q ds ms) (hg' : GroupsRows q' ds ms)
    (hq : ShowsAll w q) (hq' : ShowsAll w q') (hl : LabelsDiffer P) (D : Db ρ) (hset : SetOfViews D P) (hviews : SameViews P q q')
    (y : FObj) (hw : q'.wheres = q.wheres) (hy : q'.havings = q.havings ++ [y]) (hfo : q'.fieldOf = q.fieldOf)
    (pos : Nat → Nat) (hon : OnShown P q ms pos y) (out out' : List (List Val)) (ha : s.Answers D out) (ha' : s'.Answers D out') :
    out'.Perm (out.filter (fun l => TrueOf D (fun i => ds.length + pos i) y l)) := by
  obtain ⟨views, hv, ht⟩ := answer_table P w q s hs ds ms hp hg hne hq hl D out ha
  obtain ⟨views', hv', ht'⟩ := answer_table P w q' s' hs' ds ms hp' hg' hne hq' hl D out' ha'
  obtain ⟨views'', hv'', hcomp⟩ := C55_comparisons P w q' s' hs' ds ms hp'.dims hp'.metrics
  have hvv := hviews views views' hv hv'
  obtain ⟨e1, e2, e3⟩ := hset views views' hvv
  obtain ⟨-, e4, -⟩ := hset views views'' (hviews views views'' hv hv'')
  have hacc := fun r : ρ => access_pass hset w hvv q.fieldOf [r]
  have hpass : PassesWhere D P w views' q' = PassesWhere D P w views q := by
    funext r
    unfold PassesWhere
    rw [hfo, hacc r, ← e2, hw]
  have hleaf : ∀ xs : List FObj, ∀ l ∈ leaves y, l ∈ leavesList (xs ++ [y]) := by
    intro xs l hl
    induction xs with
    | nil => simpa [leavesList] using hl
    | cons x xs ih => simp [leavesList, ih]
  have hcmp : ∀ r G, meaning (compared D P w (P.fpk views) q.fieldOf G) y = .t ↔
      TrueOf D (fun i => ds.length + pos i) y (ds.map (fun d => valueOf D.engine w (P.fpk views) d [r]) ++
        ms.map (fun m => valueOf D.engine w (P.fpk views) m G)) := by
    intro r G
    unfold TrueOf
    rw [meaning_congr _ _ y (fun l hl i hi => ?_)]
    obtain ⟨m, hm, hget⟩ := hon l hl i hi
    obtain ⟨a, hsq⟩ := hp.measure m (List.mem_of_getElem? hm)
    rw [shown_metric _ _ _ _ _ _ _ (by simp) _ _ hm]
    obtain ⟨f, hf1, hf2⟩ := hcomp i (.inr (.inr ⟨hg', l, by rw [hy]; exact hleaf _ l hl, hi⟩))
    rw [hfo, hget] at hf1
    cases hf1
    obtain ⟨ag, hag⟩ := hf2 a hsq
    rw [← e4] at hag
    unfold compared
    rw [hget]
    simp only [hsq, hag]
  have hhav : ∀ G, PassesHaving D P w views' q' G ↔ PassesHaving D P w views q G ∧ meaning (compared D P w (P.fpk views) q.fieldOf G) y = .t := by
    intro G
    have hm : ∀ val : Nat → TV, meanings val [y] = [meaning val y] := fun val => rfl
    unfold PassesHaving
    rw [hfo, ← e2, hy, meanings_append, hm]
    simp only [List.mem_append, List.mem_singleton]
    constructor
    · intro h2
      exact ⟨fun v hv => h2 v (.inl hv), h2 _ (.inr rfl)⟩
    · rintro ⟨h2, h3⟩ v (hv | rfl)
      · exact h2 v hv
      · exact h3
  rw [← e1, ← e2, hpass] at ht'
  refine (List.perm_ext_iff_of_nodup (table_nodup ht') ((table_nodup ht).filter _)).mpr fun l => ?_
  rw [List.mem_filter, table_iff ht', table_iff ht, decide_eq_true_iff]
  constructor
  · rintro ⟨r, hr, h1, h2, rfl⟩
    obtain ⟨h2, h3⟩ := (hhav _).mp h2
    exact ⟨⟨r, hr, h1, h2, rfl⟩, (hcmp r _).mp h3⟩
  · rintro ⟨⟨r, hr, h1, h2, rfl⟩, h3⟩
    exact ⟨r, hr, h1, (hhav _).mpr ⟨h2, (hcmp r _).mpr h3⟩, rfl⟩

theorem columns_dimensions (E : Engine ρ) (w : Warehouse) (fpk : FunctionalPk) {ds ds' : List AnsField} {dj : List Nat}
    (h : List.Forall₂ (fun f j => ds[j]? = some f) ds' dj) (r : ρ) (rest : List Val) :
    columns dj (ds.map (fun d => valueOf E w fpk d [r]) ++ rest) = ds'.map (fun d => valueOf E w fpk d [r]) := by
  unfold columns
  induction h with
  | nil => rfl
  | @cons f j _ _ hj _ ih => rw [List.map_cons, List.map_cons, ih, shown_dimension _ _ _ _ _ _ _ _ hj]

theorem columns_metrics (E : Engine ρ) (w : Warehouse) (fpk : FunctionalPk) {ms ms' : List AnsField} {mj : List Nat}
    (h : List.Forall₂ (fun f j => ms[j]? = some f) ms' mj) (G : List ρ) (k : List Val) (n : Nat) (hn : k.length = n) :
    columns (mj.map (n + ·)) (k ++ ms.map (fun m => valueOf E w fpk m G)) = ms'.map (fun m => valueOf E w fpk m G) := by
  unfold columns
  induction h with
  | nil => rfl
  | @cons f j _ _ hj _ ih => rw [List.map_cons, List.map_cons, List.map_cons, ih, shown_metric _ _ _ _ _ _ _ hn _ _ hj]

/-- C83: what else is asked for, and in which order, changes no number. When a query is asked again with the same dimensions in any order (`dj` are their columns in the first
query), and some of its metrics in any order (`mj`), the answer has the same lines with the columns asked for. -/
theorem C83_columns (P : AnsProject) (w : Warehouse) (q q' : Question) (s s' : Stmt) (hs : buildStmt P w q = .ok s) (hs' : buildStmt P w q' = .ok s')
    (ds ms ds' ms' : List AnsField) (hp : Proper P q ds ms) (hp' : Proper P q' ds' ms') (hne : ds ≠ []) (hg : GroupsRows q ds ms)
    (hg' : GroupsRows q' ds' ms') (hq : ShowsAll w q) (hq' : ShowsAll w q') (hl : LabelsDiffer P) (D : Db ρ) (hset : SetOfViews D P) (hviews : SameViews P q q')
    (hw : q'.wheres = q.wheres) (hh : q'.havings = q.havings) (hfo : q'.fieldOf = q.fieldOf)
    (hds : ∀ d ∈ ds, d ∈ ds') (dj mj : List Nat) (hdj : List.Forall₂ (fun f j => ds[j]? = some f) ds' dj) (hmj : List.Forall₂ (fun f j => ms[j]? = some f) ms' mj)
    (out out' : List (List Val)) (ha : s.Answers D out) (ha' : s'.Answers D out') :
    out'.Perm (out.map (columns (dj ++ mj.map (ds.length + ·)))) := by
  have hne' : ds' ≠ [] := by
    obtain ⟨d, hd⟩ := List.exists_mem_of_ne_nil _ hne
    exact List.ne_nil_of_mem (hds d hd)
  have hds' : ∀ d ∈ ds', d ∈ ds := by
    intro d hd
    obtain ⟨j, -, hj⟩ := forall₂_mem_left hdj hd
    exact List.mem_of_getElem? hj
  obtain ⟨views, hv, ht⟩ := answer_table P w q s hs ds ms hp hg hne hq hl D out ha
  obtain ⟨views', hv', ht'⟩ := answer_table P w q' s' hs' ds' ms' hp' hg' hne' hq' hl D out' ha'
  have hvv := hviews views views' hv hv'
  obtain ⟨e1, e2, e3⟩ := hset views views' hvv
  have hpass : PassesWhere D P w views' q' = PassesWhere D P w views q := by
    funext r
    unfold PassesWhere
    rw [hfo, access_pass hset w hvv q.fieldOf [r], ← e2, hw]
  have hhav : PassesHaving D P w views' q' = PassesHaving D P w views q := by
    funext G
    unfold PassesHaving
    rw [← e2, hh, hfo]
  rw [← e1, ← e2, hpass, hhav] at ht'
  have hkey : ∀ r x : ρ, ds'.map (fun d => valueOf D.engine w (P.fpk views) d [r]) = ds'.map (fun d => valueOf D.engine w (P.fpk views) d [x]) ↔
      ds.map (fun d => valueOf D.engine w (P.fpk views) d [r]) = ds.map (fun d => valueOf D.engine w (P.fpk views) d [x]) := by
    intro r x
    rw [List.map_inj_left, List.map_inj_left]
    exact ⟨fun h d hd => h d (hds d hd), fun h d hd => h d (hds' d hd)⟩
  have hcols : ∀ r G, columns (dj ++ mj.map (ds.length + ·)) (ds.map (fun d => valueOf D.engine w (P.fpk views) d [r]) ++
      ms.map (fun m => valueOf D.engine w (P.fpk views) m G)) = ds'.map (fun d => valueOf D.engine w (P.fpk views) d [r]) ++
      ms'.map (fun m => valueOf D.engine w (P.fpk views) m G) := by
    intro r G
    have : ∀ l, columns (dj ++ mj.map (ds.length + ·)) l = columns dj l ++ columns (mj.map (ds.length + ·)) l := by
      intro l
      unfold columns
      rw [List.map_append]
    rw [this, columns_dimensions D.engine w _ hdj, columns_metrics D.engine w _ hmj _ _ _ (by simp)]
  have hbehind : ∀ r, behindRow (D.rows views) (PassesWhere D P w views q) (fun r => ds'.map (fun d => valueOf D.engine w (P.fpk views) d [r])) r =
      behindRow (D.rows views) (PassesWhere D P w views q) (fun r => ds.map (fun d => valueOf D.engine w (P.fpk views) d [r])) r := by
    intro r
    classical
    refine List.filter_congr fun x _ => ?_
    rw [Bool.eq_iff_iff, decide_eq_true_iff, decide_eq_true_iff]
    exact and_congr Iff.rfl (hkey x r)
  have hone : ∀ r x, ds.map (fun d => valueOf D.engine w (P.fpk views) d [r]) = ds.map (fun d => valueOf D.engine w (P.fpk views) d [x]) →
      behindRow (D.rows views) (PassesWhere D P w views q) (fun r => ds.map (fun d => valueOf D.engine w (P.fpk views) d [r])) r =
      behindRow (D.rows views) (PassesWhere D P w views q) (fun r => ds.map (fun d => valueOf D.engine w (P.fpk views) d [r])) x := by
    intro r x h
    classical
    refine List.filter_congr fun y _ => ?_
    rw [Bool.eq_iff_iff, decide_eq_true_iff, decide_eq_true_iff]
    show _ ∧ ds.map (fun d => valueOf D.engine w (P.fpk views) d [y]) = ds.map (fun d => valueOf D.engine w (P.fpk views) d [r]) ↔ _
    rw [h]
  refine (List.perm_ext_iff_of_nodup (table_nodup ht') ?_).mpr fun l => ?_
  · refine (List.nodup_map_iff_inj_on (table_nodup ht)).mpr ?_
    intro l hl l' hl' e
    obtain ⟨r, -, -, -, rfl⟩ := (table_iff ht l).mp hl
    obtain ⟨x, -, -, -, rfl⟩ := (table_iff ht l').mp hl'
    rw [hcols, hcols] at e
    have e := (hkey r x).mp (List.append_inj_left e (by simp))
    rw [hone r x e, e]
  · rw [table_iff ht', List.mem_map]
    constructor
    · rintro ⟨r, hr, h1, h2, rfl⟩
      rw [hbehind] at h2 ⊢
      exact ⟨_, (table_iff ht _).mpr ⟨r, hr, h1, h2, rfl⟩, hcols r _⟩
    · rintro ⟨l, hl, rfl⟩
      obtain ⟨r, hr, h1, h2, rfl⟩ := (table_iff ht l).mp hl
      refine ⟨r, hr, h1, by rw [hbehind]; exact h2, ?_⟩
      rw [hcols, hbehind]

end
end ML
