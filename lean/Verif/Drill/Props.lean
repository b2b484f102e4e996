import Verif.Drill.Spec
import Verif.Drill.Lemmas
import Verif.Answer.Props
/-
C81: the lines of a query add up to those of the query with fewer dimensions.
-/
set_option autoImplicit false
namespace ML
open Spec

section
variable {ρ : Type}

/-- What a metric that adds up is, over any rows. -/
theorem addsUp_value (E : Engine ρ) (w : Warehouse) (fpk : FunctionalPk) (f : AnsField) (m : Measure) (hf : f.sql = .measure m) (h : AddsUp w fpk m) (G : List ρ) :
    valueOf E w fpk f G = match m.type with
      | .count => some ((G.filterMap (fun r => E.value r m.sql)).length : ℚ)
      | .max => sqlMax (G.filterMap (fun r => E.value r m.sql))
      | .min => sqlMin (G.filterMap (fun r => E.value r m.sql))
      | _ => sqlSum (G.filterMap (fun r => E.value r m.sql)) := by
  unfold valueOf
  rw [hf]
  simp only
  have hneed : ((∃ id s, m.pk = some (id, s) ∧ fpk = .key id) ∨ fpk = .none ∨ w ∉ [Warehouse.snowflake, .redshift, .bigquery, .postgres, .duckDb]) →
      supportsSymmetric w = true → needsSymmetric m fpk = .ok false := by
    rintro (⟨id, s, h1, rfl⟩ | rfl | h) hs
    · unfold needsSymmetric
      simp [h1]
    · rfl
    · cases w <;> simp_all [supportsSymmetric]
  rcases h with h | h | ⟨h | h, hk⟩
  · unfold aggregateSql
    rw [h]
    rfl
  · unfold aggregateSql
    rw [h]
    rfl
  · unfold aggregateSql
    rw [h]
    simp only
    cases hs : supportsSymmetric w with
    | false => rfl
    | true => rw [hneed hk hs]; rfl
  · unfold aggregateSql
    rw [h]
    simp only
    cases hs : supportsSymmetric w with
    | false => rfl
    | true => rw [hneed hk hs]; rfl

/-- The value over rows that are split into groups is the values of the groups together. -/
theorem addsUp_together (E : Engine ρ) (w : Warehouse) (fpk fpk' : FunctionalPk) (f : AnsField) (m : Measure) (hf : f.sql = .measure m) (h : AddsUp w fpk m)
    (h' : AddsUp w fpk' m) (G : List ρ) (Gs : List (List ρ)) (hv : (G.filterMap (fun r => E.value r m.sql)).Perm (Gs.flatten.filterMap (fun r => E.value r m.sql))) :
    valueOf E w fpk' f G = together m.type (Gs.map (valueOf E w fpk f)) := by
  have e : Gs.map (valueOf E w fpk f) = Gs.map (fun G => match m.type with
      | .count => some ((G.filterMap (fun r => E.value r m.sql)).length : ℚ)
      | .max => sqlMax (G.filterMap (fun r => E.value r m.sql))
      | .min => sqlMin (G.filterMap (fun r => E.value r m.sql))
      | _ => sqlSum (G.filterMap (fun r => E.value r m.sql))) := List.map_congr_left fun G _ => addsUp_value E w fpk f m hf h G
  rw [addsUp_value E w fpk' f m hf h' G, e]
  have hfl : Gs.flatten.filterMap (fun r => E.value r m.sql) = (Gs.map (List.filterMap (fun r => E.value r m.sql))).flatten := by
    rw [List.filterMap_flatten]
  rw [hfl] at hv
  rcases h with h | h | ⟨h | h, -⟩
  · simp only [h, together]
    rw [sqlMax_perm hv, sqlMax_flatten, List.map_map]
    rfl
  · simp only [h, together]
    rw [sqlMin_perm hv, sqlMin_flatten, List.map_map]
    rfl
  · simp only [h, together]
    rw [drill_sqlSum_perm hv, sqlSum_flatten, List.map_map]
    rfl
  · simp only [h, together]
    rw [hv.length_eq]
    clear hv hfl e
    congr 1
    induction Gs with
    | nil => rfl
    | cons G Gs ih =>
      simp only [List.map_cons, List.flatten_cons, List.length_append, Nat.cast_add, List.filterMap_cons, id_eq, List.sum_cons]
      rw [ih]
      rfl

theorem having_none {D : Db ρ} {P : AnsProject} {w : Warehouse} {views : List String} {q : Question} (h : q.havings = []) :
    PassesHaving D P w views q = fun _ => True := by
  funext G
  unfold PassesHaving
  rw [h]
  simp [meanings]

/-- The rows of the coarser group and those behind the finer lines have the same values. -/
theorem widens_split {D : Db ρ} {P : AnsProject} {w : Warehouse} {q q' : Question} {ds es ms : List AnsField} {views views' : List String}
    (hdim : ∀ d ∈ ds, ∃ s, d.sql = .dimension s)
    (hw : Widens D P w q q' ds ms views views') {lines : List (List Val)} (fpk fpk' : FunctionalPk)
    (ht : IsTable (D.rows views) (PassesWhere D P w views q) (fun r => (ds ++ es).map (fun d => valueOf D.engine w fpk d [r]))
        (fun G => ms.map (fun m => valueOf D.engine w fpk m G)) (fun _ => True) (ds ++ es).length lines)
    (k : List Val) (p' : ρ → Bool)
    (hp' : ∀ r ∈ D.rows views', p' r = true ↔ PassesWhere D P w views' q' r ∧ ds.map (fun d => valueOf D.engine w fpk' d [r]) = k)
    (i : Nat) (f : AnsField) (hi : ms[i]? = some f) (m : Measure) (hf : f.sql = .measure m) :
    ∃ Gs : List (List ρ), (((D.rows views').filter p').filterMap (fun r => D.engine.value r m.sql)).Perm
        (Gs.flatten.filterMap (fun r => D.engine.value r m.sql)) ∧
      columnAt ((ds ++ es).length + i) (lines.filter (fun l => l.take ds.length = k)) = Gs.map (valueOf D.engine w fpk f) := by
  obtain ⟨part, hperm, hpart⟩ := hw
  have hdims : ∀ r ∈ D.rows views, ((ds ++ es).map (fun d => valueOf D.engine w fpk d [r])).take ds.length
      = ds.map (fun d => valueOf D.engine w fpk' d [part r]) := by
    intro r hr
    rw [List.map_append, List.take_left' (by simp)]
    refine List.map_congr_left fun d hd => ?_
    obtain ⟨s, hs⟩ := hdim d hd
    have := (hpart r hr).2.1 d hd s hs
    simp [valueOf, hs, this]
  obtain ⟨Gs, hG, hL⟩ := table_split ht (fun r => by simp) ds.length (by simp) k (fun r => p' (part r)) (fun r hr => by
    rw [hp' (part r) (hperm.mem_iff.mp (List.mem_map.mpr ⟨r, hr, rfl⟩)), (hpart r hr).1, hdims r hr])
  refine ⟨Gs, ?_, ?_⟩
  rotate_left
  · have : ∀ l ∈ lines.filter (fun l => l.take ds.length = k), (l[(ds ++ es).length + i]?).join = ((l.drop (ds ++ es).length)[i]?).join := by
      intro l _
      rw [List.getElem?_drop]
    unfold columnAt
    rw [List.map_congr_left this]
    have e : (lines.filter (fun l => l.take ds.length = k)).map (fun l => ((l.drop (ds ++ es).length)[i]?).join)
        = ((lines.filter (fun l => l.take ds.length = k)).map (List.drop (ds ++ es).length)).map (fun l => (l[i]?).join) := by
      rw [List.map_map]
      rfl
    rw [e, hL, List.map_map]
    refine List.map_congr_left fun G _ => ?_
    simp [hi]
  · refine List.Perm.trans ?_ (hG.filterMap _)
    have h1 : ((D.rows views').filter p').Perm (((D.rows views).map part).filter p') := hperm.symm.filter _
    refine (h1.filterMap _).trans (List.Perm.of_eq ?_)
    rw [List.filter_map, List.filterMap_map]
    refine List.filterMap_congr fun r hr => ?_
    exact ((hpart r (List.mem_filter.mp hr).1).2.2 f (List.mem_of_getElem? hi) m hf).symm

theorem widens_values {D : Db ρ} {P : AnsProject} {w : Warehouse} {q q' : Question} {ds es ms : List AnsField} {views views' : List String}
    (hdim : ∀ d ∈ ds, ∃ s, d.sql = .dimension s)
    (hw : Widens D P w q q' ds ms views views') {lines : List (List Val)} (fpk fpk' : FunctionalPk)
    (ht : IsTable (D.rows views) (PassesWhere D P w views q) (fun r => (ds ++ es).map (fun d => valueOf D.engine w fpk d [r]))
        (fun G => ms.map (fun m => valueOf D.engine w fpk m G)) (fun _ => True) (ds ++ es).length lines)
    (k : List Val) (p' : ρ → Bool)
    (hp' : ∀ r ∈ D.rows views', p' r = true ↔ PassesWhere D P w views' q' r ∧ ds.map (fun d => valueOf D.engine w fpk' d [r]) = k)
    (i : Nat) (f : AnsField) (hi : ms[i]? = some f) (m : Measure) (hf : f.sql = .measure m) (h : AddsUp w fpk m) (h' : AddsUp w fpk' m) :
    valueOf D.engine w fpk' f ((D.rows views').filter p') =
      together m.type (columnAt ((ds ++ es).length + i) (lines.filter (fun l => l.take ds.length = k))) := by
  obtain ⟨Gs, h1, h2⟩ := widens_split hdim hw fpk fpk' ht k p' hp' i f hi m hf
  rw [h2]
  exact addsUp_together D.engine w fpk fpk' f m hf h h' _ Gs h1

/-- C81 (a): the lines add up to the total. A query by dimensions is compared with the same query without dimensions: when the FROM with the dimensions is the other
one with more columns, every metric that adds up has as its total the values of all lines together, on every warehouse. -/
theorem C81_total (P : AnsProject) (w : Warehouse) (q q' : Question) (s s' : Stmt) (hs : buildStmt P w q = .ok s) (hs' : buildStmt P w q' = .ok s')
    (es ms : List AnsField) (hp : Proper P q es ms) (hp' : Proper P q' [] ms) (hne : es ≠ []) (hg : GroupsRows q es ms)
    (hq : AsksAll w q) (hq' : AsksAll w q') (hl : LabelsDiffer P) (D : Db ρ)
    (hw : ∀ views views', QueryViews P q views → QueryViews P q' views' → Widens D P w q q' [] ms views views')
    (i : Nat) (f : AnsField) (hi : ms[i]? = some f) (m : Measure) (hf : f.sql = .measure m)
    (hm : ∀ views, QueryViews P q views ∨ QueryViews P q' views → AddsUp w (P.fpk views) m)
    (out out' : List (List Val)) (ha : s.Answers D out) (ha' : s'.Answers D out') :
    ∃ line, out' = [line] ∧ line.length = ms.length ∧ line[i]? = some (together m.type (columnAt (es.length + i) out)) := by
  obtain ⟨views, lines, hv, ht, -, hlim⟩ := C55_table P w q s hs es ms hp hg hne hq.groups hl hq.order.1 hq.order.2 (.inl (by rw [hq.limit]; simp)) D out ha
  rw [hq.limit] at hlim
  have hlim : out = lines := hlim
  subst hlim
  obtain ⟨views', p', hv', hp1, h1, -⟩ := C55_total P w q' s' hs' ms hp' hq'.groups (by rw [hq'.limit]; simp) D out' ha'
  rw [having_none hq.havings] at ht
  rw [having_none hq'.havings] at h1
  refine ⟨_, h1 trivial, by simp, ?_⟩
  rw [List.getElem?_map, hi, Option.map_some]
  congr 1
  have := widens_values (ds := []) (es := es) (by simp) (hw views views' hv hv') (P.fpk views) (P.fpk views') (by simpa using ht) [] p'
    (fun r _ => by rw [hp1]; simp) i f hi m hf (hm views (.inl hv)) (hm views' (.inr hv'))
  rw [this]
  simp

/-- C81 (b): drilling down. A query by dimensions is compared with the same query by further dimensions: every line of the first has, for every metric that adds up, the values of
the lines of the second that have its dimension values, together; and the two queries have the same values of the first dimensions. -/
theorem C81_drill (P : AnsProject) (w : Warehouse) (q q' : Question) (s s' : Stmt) (hs : buildStmt P w q = .ok s) (hs' : buildStmt P w q' = .ok s')
    (ds es ms : List AnsField) (hp : Proper P q (ds ++ es) ms) (hp' : Proper P q' ds ms) (hne : ds ≠ []) (hg : GroupsRows q (ds ++ es) ms)
    (hg' : GroupsRows q' ds ms) (hq : AsksAll w q) (hq' : AsksAll w q') (hl : LabelsDiffer P) (D : Db ρ)
    (hw : ∀ views views', QueryViews P q views → QueryViews P q' views' → Widens D P w q q' ds ms views views')
    (out out' : List (List Val)) (ha : s.Answers D out) (ha' : s'.Answers D out') :
    (∀ l' ∈ out', ∀ i f m, ms[i]? = some f → f.sql = .measure m →
      (∀ views, QueryViews P q views ∨ QueryViews P q' views → AddsUp w (P.fpk views) m) →
      l'[ds.length + i]? = some (together m.type (columnAt ((ds ++ es).length + i) (out.filter (fun l => l.take ds.length = l'.take ds.length))))) ∧
    ∀ k, k ∈ out'.map (List.take ds.length) ↔ k ∈ out.map (List.take ds.length) := by
  obtain ⟨views, lines, hv, ht, -, hlim⟩ := C55_table P w q s hs (ds ++ es) ms hp hg (by simp [hne]) hq.groups hl hq.order.1 hq.order.2
    (.inl (by rw [hq.limit]; simp)) D out ha
  rw [hq.limit] at hlim
  have hlim : out = lines := hlim
  subst hlim
  obtain ⟨views', lines', hv', ht', -, hlim'⟩ := C55_table P w q' s' hs' ds ms hp' hg' hne hq'.groups hl hq'.order.1 hq'.order.2
    (.inl (by rw [hq'.limit]; simp)) D out' ha'
  rw [hq'.limit] at hlim'
  have hlim' : out' = lines' := hlim'
  subst hlim'
  rw [having_none hq.havings] at ht
  rw [having_none hq'.havings] at ht'
  refine ⟨fun l' hl' i f m hi hf hm => ?_, fun k => ?_⟩
  · obtain ⟨k, G, hlen, -, ⟨p', hp1, rfl⟩, -, rfl⟩ := ht'.sound l' hl'
    rw [List.take_left' hlen, List.getElem?_append_right (by omega), List.getElem?_map, hlen, Nat.add_sub_cancel_left, hi, Option.map_some]
    congr 1
    exact widens_values hp'.dimension (hw views views' hv hv') (P.fpk views) (P.fpk views') ht k p' hp1 i f hi m hf (hm views (.inl hv)) (hm views' (.inr hv'))
  · obtain ⟨part, hperm, hpart⟩ := hw views views' hv hv'
    have hdims : ∀ r ∈ D.rows views, ((ds ++ es).map (fun d => valueOf D.engine w (P.fpk views) d [r])).take ds.length
        = ds.map (fun d => valueOf D.engine w (P.fpk views') d [part r]) := by
      intro r hr
      rw [List.map_append, List.take_left' (by simp)]
      refine List.map_congr_left fun d hd => ?_
      obtain ⟨sq, hsq⟩ := hp'.dimension d hd
      have := (hpart r hr).2.1 d hd sq hsq
      simp [valueOf, hsq, this]
    constructor
    · intro hk
      obtain ⟨l', hl', rfl⟩ := List.mem_map.mp hk
      obtain ⟨k, G, hlen, hG, ⟨p', hp1, rfl⟩, -, rfl⟩ := ht'.sound l' hl'
      obtain ⟨r', hr'⟩ := List.exists_mem_of_ne_nil _ hG
      obtain ⟨hr1, hr2⟩ := List.mem_filter.mp hr'
      obtain ⟨hpass, hkey⟩ := (hp1 r' hr1).mp hr2
      obtain ⟨r, hr, rfl⟩ := List.mem_map.mp (hperm.mem_iff.mpr hr1)
      obtain ⟨G, -, hm⟩ := ht.complete r hr ((hpart r hr).1.mpr hpass)
      refine List.mem_map.mpr ⟨_, hm trivial, ?_⟩
      rw [List.take_left' hlen, List.take_append_of_le_length (by simp), hdims r hr]
      exact hkey
    · intro hk
      obtain ⟨l, hl, rfl⟩ := List.mem_map.mp hk
      obtain ⟨k, G, hlen, hG, ⟨p, hp1, rfl⟩, -, rfl⟩ := ht.sound l hl
      obtain ⟨r, hr⟩ := List.exists_mem_of_ne_nil _ hG
      obtain ⟨hr1, hr2⟩ := List.mem_filter.mp hr
      obtain ⟨hpass, hkey⟩ := (hp1 r hr1).mp hr2
      obtain ⟨G, -, hm⟩ := ht'.complete (part r) (hperm.mem_iff.mp (List.mem_map.mpr ⟨r, hr1, rfl⟩)) ((hpart r hr1).1.mp hpass)
      refine List.mem_map.mpr ⟨_, hm trivial, ?_⟩
      rw [List.take_left' (by simp), ← hdims r hr1, List.take_append_of_le_length (by rw [hlen]; simp)]
      exact congrArg _ hkey

/-! ### Counts of different values -/

theorem distinct_bounds (E : Engine ρ) (w : Warehouse) (fpk fpk' : FunctionalPk) (f : AnsField) (m : Measure) (hf : f.sql = .measure m) (h : m.type = .countDistinct)
    (G : List ρ) (Gs : List (List ρ)) (hv : (G.filterMap (fun r => E.value r m.sql)).Perm (Gs.flatten.filterMap (fun r => E.value r m.sql))) :
    ∃ n : ℚ, valueOf E w fpk' f G = some n ∧ (∀ x ∈ Gs.map (valueOf E w fpk f), ∃ a, x = some a ∧ a ≤ n) ∧ n ≤ ((Gs.map (valueOf E w fpk f)).filterMap id).sum := by
  have hval : ∀ fpk G, valueOf E w fpk f G = some (((G.filterMap (fun r => E.value r m.sql)).dedup.length : ℕ) : ℚ) := by
    intro fpk G
    unfold valueOf
    rw [hf]
    simp only [aggregateSql, h]
    rfl
  refine ⟨_, hval fpk' G, ?_, ?_⟩
  · intro x hx
    obtain ⟨H, hH, rfl⟩ := List.mem_map.mp hx
    refine ⟨_, hval fpk H, ?_⟩
    rw [Nat.cast_le]
    refine ((List.nodup_dedup _).subperm fun x hx => ?_).length_le
    rw [List.mem_dedup] at hx ⊢
    rw [hv.mem_iff]
    obtain ⟨r, hr, he⟩ := List.mem_filterMap.mp hx
    exact List.mem_filterMap.mpr ⟨r, List.mem_flatten.mpr ⟨H, hH, hr⟩, he⟩
  · have h1 : (G.filterMap (fun r => E.value r m.sql)).dedup.length = (Gs.flatten.filterMap (fun r => E.value r m.sql)).dedup.length :=
      hv.dedup.length_eq
    rw [h1]
    clear hv h1
    induction Gs with
    | nil => simp
    | cons H Gs ih =>
      rw [List.map_cons, hval fpk H]
      show _ ≤ (List.sum (_ :: (Gs.map (valueOf E w fpk f)).filterMap id) : ℚ)
      rw [List.sum_cons]
      refine le_trans ?_ (add_le_add_right ih _)
      rw [← Nat.cast_add, Nat.cast_le, ← List.length_append]
      refine ((List.nodup_dedup _).subperm fun x hx => ?_).length_le
      rw [List.mem_dedup, List.flatten_cons, List.filterMap_append, List.mem_append] at hx
      rw [List.mem_append, List.mem_dedup, List.mem_dedup]
      exact hx

/-- C81 (e): a count of different values does not add up, but its total is at least that of every line, and at most all lines together. -/
theorem C81_distinct (P : AnsProject) (w : Warehouse) (q q' : Question) (s s' : Stmt) (hs : buildStmt P w q = .ok s) (hs' : buildStmt P w q' = .ok s')
    (es ms : List AnsField) (hp : Proper P q es ms) (hp' : Proper P q' [] ms) (hne : es ≠ []) (hg : GroupsRows q es ms)
    (hq : AsksAll w q) (hq' : AsksAll w q') (hl : LabelsDiffer P) (D : Db ρ)
    (hw : ∀ views views', QueryViews P q views → QueryViews P q' views' → Widens D P w q q' [] ms views views')
    (i : Nat) (f : AnsField) (hi : ms[i]? = some f) (m : Measure) (hf : f.sql = .measure m) (hm : m.type = .countDistinct)
    (out out' : List (List Val)) (ha : s.Answers D out) (ha' : s'.Answers D out') :
    ∃ line n, out' = [line] ∧ line[i]? = some (some n) ∧ (∀ l ∈ out, ∃ a, l[es.length + i]? = some (some a) ∧ a ≤ n) ∧
      n ≤ ((columnAt (es.length + i) out).filterMap id).sum := by
  obtain ⟨views, lines, hv, ht, -, hlim⟩ := C55_table P w q s hs es ms hp hg hne hq.groups hl hq.order.1 hq.order.2 (.inl (by rw [hq.limit]; simp)) D out ha
  rw [hq.limit] at hlim
  have hlim : out = lines := hlim
  subst hlim
  obtain ⟨views', p', hv', hp1, h1, -⟩ := C55_total P w q' s' hs' ms hp' hq'.groups (by rw [hq'.limit]; simp) D out' ha'
  rw [having_none hq.havings] at ht
  rw [having_none hq'.havings] at h1
  obtain ⟨Gs, h2, h3⟩ := widens_split (ds := []) (es := es) (by simp) (hw views views' hv hv') (P.fpk views) (P.fpk views') (by simpa using ht) [] p'
    (fun r _ => by rw [hp1]; simp) i f hi m hf
  have h3 : columnAt (es.length + i) out = Gs.map (valueOf D.engine w (P.fpk views) f) := by simpa using h3
  obtain ⟨n, h4, h5, h6⟩ := distinct_bounds D.engine w (P.fpk views) (P.fpk views') f m hf hm _ Gs h2
  refine ⟨_, n, h1 trivial, ?_, fun l hl => ?_, by rw [h3]; exact h6⟩
  · rw [List.getElem?_map, hi, Option.map_some, h4]
  · obtain ⟨a, h7, h8⟩ := h5 ((l[es.length + i]?).join) (by rw [← h3]; exact List.mem_map.mpr ⟨l, hl, rfl⟩)
    refine ⟨a, ?_, h8⟩
    cases hx : l[es.length + i]? with
    | none => rw [hx] at h7; cases h7
    | some v =>
      rw [hx] at h7
      exact congrArg some h7

end
end ML
