import Verif.Joined.Spec
import Verif.Design.Spec
import Mathlib.Data.List.Nodup
import Mathlib.Data.List.Induction
/-
Helper lemmas for C19 and C20.
-/
set_option autoImplicit false
namespace ML
open Spec

section
variable {ρ : Type}

theorem partOf_append (v : String) (a b : List (JRow ρ)) :
    partOf v (a ++ b) = partOf v a ++ partOf v b := by simp [partOf]

theorem partOf_flatMap (v : String) (f : JRow ρ → List (JRow ρ)) (rows : List (JRow ρ)) :
    partOf v (rows.flatMap f) = rows.flatMap (fun r => partOf v (f r)) := by
  induction rows with
  | nil => rfl
  | cons r rs ih => simp only [List.flatMap_cons, partOf_append, ih]

theorem partOf_eq_flatMap (v : String) (rows : List (JRow ρ)) :
    partOf v rows = rows.flatMap (fun r => partOf v [r]) := by
  rw [← partOf_flatMap]; congr 1; induction rows with
  | nil => rfl
  | cons r rs ih => simp [List.flatMap_cons]

theorem dictGet_cons_ne {a v : String} (h : a ≠ v) (r : ρ) (row : JRow ρ) :
    dictGet ((a, r) :: row) v = dictGet row v := by simp [dictGet, h]

theorem dictGet_cons_eq (a : String) (r : ρ) (row : JRow ρ) :
    dictGet ((a, r) :: row) a = some r := by simp [dictGet]

/-- Every row of the result takes its parts from the tables, and only from the views seen. -/
def RowsOk (db : String → List ρ) (seen : List String) (rows : List (JRow ρ)) : Prop :=
  ∀ row ∈ rows, ∀ v r, dictGet row v = some r → r ∈ db v ∧ v ∈ seen

theorem mem_matching {j : JoinStep ρ} {table : List ρ} {row : JRow ρ} {t : ρ}
    (h : t ∈ matching j table row) : t ∈ table := by
  unfold matching at h
  cases hd : dictGet row j.src with
  | none => rw [hd] at h; cases h
  | some r => rw [hd] at h; exact (List.mem_filter.mp h).1

theorem mem_leftRows {j : JoinStep ρ} {table : List ρ} {row x : JRow ρ}
    (h : x ∈ leftRows j table row) : x = row ∨ ∃ t ∈ table, x = (j.tgt, t) :: row := by
  unfold leftRows at h
  cases hm : matching j table row with
  | nil => rw [hm] at h; left; simpa using h
  | cons t ts =>
    rw [hm] at h
    obtain ⟨u, hu, rfl⟩ := List.mem_map.mp h
    exact .inr ⟨u, mem_matching (by rw [hm]; exact hu), rfl⟩

theorem mem_stepJoin {j : JoinStep ρ} {table : List ρ} {rows : List (JRow ρ)} {x : JRow ρ}
    (h : x ∈ stepJoin j table rows) :
    x ∈ rows ∨ (∃ row ∈ rows, ∃ t ∈ table, x = (j.tgt, t) :: row) ∨ ∃ t ∈ table, x = [(j.tgt, t)] := by
  unfold stepJoin at h
  have hl : x ∈ rows.flatMap (leftRows j table) →
      x ∈ rows ∨ (∃ row ∈ rows, ∃ t ∈ table, x = (j.tgt, t) :: row) := by
    intro h
    obtain ⟨row, hr, hx⟩ := List.mem_flatMap.mp h
    rcases mem_leftRows hx with rfl | ⟨t, ht, rfl⟩
    · exact .inl hr
    · exact .inr ⟨row, hr, t, ht, rfl⟩
  cases hk : j.kind with
  | left =>
    rw [hk] at h
    rcases hl h with h | h
    · exact .inl h
    · exact .inr (.inl h)
  | inner =>
    rw [hk] at h
    obtain ⟨row, hr, hx⟩ := List.mem_flatMap.mp h
    obtain ⟨t, ht, rfl⟩ := List.mem_map.mp hx
    exact .inr (.inl ⟨row, hr, t, mem_matching ht, rfl⟩)
  | full =>
    rw [hk] at h
    rcases List.mem_append.mp h with h | h
    · rcases hl h with h | h
      · exact .inl h
      · exact .inr (.inl h)
    · obtain ⟨t, ht, rfl⟩ := List.mem_map.mp h
      exact .inr (.inr ⟨t, (List.mem_filter.mp ht).1, rfl⟩)

theorem rowsOk_step {db : String → List ρ} {seen : List String} {rows : List (JRow ρ)}
    (h : RowsOk db seen rows) (j : JoinStep ρ) :
    RowsOk db (seen ++ [j.tgt]) (stepJoin j (db j.tgt) rows) := by
  intro x hx v r hv
  have hcons : ∀ row, (∀ v r, dictGet row v = some r → r ∈ db v ∧ v ∈ seen) → ∀ t ∈ db j.tgt,
      dictGet ((j.tgt, t) :: row) v = some r → r ∈ db v ∧ v ∈ seen ++ [j.tgt] := by
    intro row hrow t ht hg
    by_cases e : j.tgt = v
    · subst e
      rw [dictGet_cons_eq] at hg
      cases hg
      exact ⟨ht, by simp⟩
    · rw [dictGet_cons_ne e] at hg
      obtain ⟨h1, h2⟩ := hrow v r hg
      exact ⟨h1, by simp [h2]⟩
  rcases mem_stepJoin hx with hx | ⟨row, hr, t, ht, rfl⟩ | ⟨t, ht, rfl⟩
  · obtain ⟨h1, h2⟩ := h x hx v r hv
    exact ⟨h1, by simp [h2]⟩
  · exact hcons row (h row hr) t ht hv
  · exact hcons [] (fun v r hh => nomatch hh) t ht hv

/-! The part of a view other than the joined one. -/

theorem part_inner_ne {j : JoinStep ρ} {v : String} (h : j.tgt ≠ v) (table : List ρ) (row : JRow ρ)
    (h1 : (matching j table row).length ≤ 1) :
    (partOf v (innerRows j table row)).Sublist (partOf v [row]) := by
  unfold innerRows
  cases hm : matching j table row with
  | nil => simp [partOf]
  | cons t ts =>
    rw [hm] at h1
    have : ts = [] := by cases ts with
      | nil => rfl
      | cons a b => simp at h1
    subst this
    simp [partOf, List.filterMap_cons, dictGet_cons_ne h]

theorem part_left_ne {j : JoinStep ρ} {v : String} (h : j.tgt ≠ v) (table : List ρ) (row : JRow ρ)
    (h1 : (matching j table row).length ≤ 1) :
    partOf v (leftRows j table row) = partOf v [row] := by
  unfold leftRows
  cases hm : matching j table row with
  | nil => rfl
  | cons t ts =>
    rw [hm] at h1
    have : ts = [] := by cases ts with
      | nil => rfl
      | cons a b => simp at h1
    subst this
    simp [partOf, List.filterMap_cons, dictGet_cons_ne h]

theorem flatMap_congr' {α β : Type} {f g : α → List β} {l : List α} (h : ∀ a ∈ l, f a = g a) :
    l.flatMap f = l.flatMap g := by
  induction l with
  | nil => rfl
  | cons a l ih =>
    simp only [List.flatMap_cons]
    rw [h a (by simp), ih (fun b hb => h b (by simp [hb]))]

theorem flatMap_sublist {α β : Type} {f g : α → List β} {l : List α}
    (h : ∀ a ∈ l, (f a).Sublist (g a)) : (l.flatMap f).Sublist (l.flatMap g) := by
  induction l with
  | nil => exact List.Sublist.slnil
  | cons a l ih =>
    simp only [List.flatMap_cons]
    exact (h a (by simp)).append (ih (fun b hb => h b (by simp [hb])))

/-- A join in which every row has at most one partner keeps the part of every other view, up to the
rows an inner join drops. -/
theorem part_step_ne {j : JoinStep ρ} {v : String} (h : j.tgt ≠ v) (table : List ρ)
    (rows : List (JRow ρ)) (h1 : ∀ row ∈ rows, (matching j table row).length ≤ 1) :
    (partOf v (stepJoin j table rows)).Sublist (partOf v rows) ∧
    (j.kind ≠ .inner → partOf v (stepJoin j table rows) = partOf v rows) := by
  have hl : partOf v (rows.flatMap (leftRows j table)) = partOf v rows := by
    rw [partOf_flatMap, partOf_eq_flatMap v rows]
    exact flatMap_congr' (fun row hr => part_left_ne h table row (h1 row hr))
  unfold stepJoin
  cases hk : j.kind with
  | left => exact ⟨by rw [hl], fun _ => hl⟩
  | inner =>
    refine ⟨?_, fun c => absurd rfl c⟩
    simp only
    rw [partOf_flatMap, partOf_eq_flatMap v rows]
    exact flatMap_sublist (fun row hr => part_inner_ne h table row (h1 row hr))
  | full =>
    have : partOf v (rows.flatMap (leftRows j table) ++
        (table.filter (fun t => !isMatched j rows t)).map (fun t => [(j.tgt, t)])) = partOf v rows := by
      rw [partOf_append, hl]
      have : partOf v ((table.filter (fun t => !isMatched j rows t)).map (fun t => [(j.tgt, t)])) = [] := by
        simp only [partOf, List.filterMap_eq_nil_iff, List.mem_map]
        rintro _ ⟨t, -, rfl⟩
        rw [dictGet_cons_ne h]; rfl
      rw [this, List.append_nil]
    exact ⟨by rw [this], fun _ => this⟩

theorem matching_le_one {db : String → List ρ} {seen : List String} {rows : List (JRow ρ)}
    (hok : RowsOk db seen rows) {j : JoinStep ρ} (hr : Respects db j)
    (hrel : j.rel = .manyToOne ∨ j.rel = .oneToOne) :
    ∀ row ∈ rows, (matching j (db j.tgt) row).length ≤ 1 := by
  intro row hrow
  unfold matching
  cases hd : dictGet row j.src with
  | none => simp
  | some s => exact hr.1 hrel s (hok row hrow _ _ hd).1

/-! The part of the joined view. -/

theorem part_new_inner {j : JoinStep ρ} (table : List ρ) (row : JRow ρ) :
    partOf j.tgt (innerRows j table row) = matching j table row := by
  unfold innerRows partOf
  rw [List.filterMap_map]
  have : ((fun row => dictGet row j.tgt) ∘ fun t => (j.tgt, t) :: row) = (some : ρ → Option ρ) := by
    funext t; exact dictGet_cons_eq _ _ _
  rw [this, List.filterMap_some]

theorem part_new_left {j : JoinStep ρ} (table : List ρ) (row : JRow ρ)
    (hn : dictGet row j.tgt = none) :
    partOf j.tgt (leftRows j table row) = matching j table row := by
  have := part_new_inner (j := j) table row
  unfold innerRows at this
  unfold leftRows
  cases hm : matching j table row with
  | nil => simp [partOf, hn]
  | cons t ts => rw [hm] at this; exact this

theorem flatMap_matching (j : JoinStep ρ) (table : List ρ) (rows : List (JRow ρ)) :
    rows.flatMap (matching j table) = (partOf j.src rows).flatMap (fun r => table.filter (j.on r)) := by
  induction rows with
  | nil => rfl
  | cons row rows ih =>
    simp only [List.flatMap_cons, ih, partOf, List.filterMap_cons]
    unfold matching
    cases hd : dictGet row j.src with
    | none => simp
    | some r => simp [List.flatMap_cons]

theorem part_step_new {j : JoinStep ρ} (table : List ρ) (rows : List (JRow ρ))
    (hn : ∀ row ∈ rows, dictGet row j.tgt = none) :
    partOf j.tgt (stepJoin j table rows) =
      (partOf j.src rows).flatMap (fun r => table.filter (j.on r)) ++
      (if j.kind = .full then table.filter (fun t => !isMatched j rows t) else []) := by
  have hl : partOf j.tgt (rows.flatMap (leftRows j table)) =
      (partOf j.src rows).flatMap (fun r => table.filter (j.on r)) := by
    rw [partOf_flatMap, ← flatMap_matching]
    exact flatMap_congr' (fun row hr => part_new_left table row (hn row hr))
  unfold stepJoin
  cases hk : j.kind with
  | left => simp [hl]
  | inner =>
    simp only [reduceCtorEq, if_false, List.append_nil]
    rw [partOf_flatMap, ← flatMap_matching]
    exact flatMap_congr' (fun row hr => part_new_inner table row)
  | full =>
    simp only [if_true, partOf_append, hl]
    congr 1
    unfold partOf
    rw [List.filterMap_map]
    have : ((fun row => dictGet row j.tgt) ∘ fun t => [(j.tgt, t)]) = (some : ρ → Option ρ) := by
      funext t; exact dictGet_cons_eq _ _ _
    rw [this, List.filterMap_some]

/-- At most one in a list without repetitions: two elements that satisfy the test are equal. -/
theorem eq_of_filter_le_one {α : Type} {p : α → Bool} {l : List α} (h : (l.filter p).length ≤ 1)
    {a b : α} (ha : a ∈ l) (hb : b ∈ l) (pa : p a = true) (pb : p b = true) : a = b := by
  have h1 : a ∈ l.filter p := List.mem_filter.mpr ⟨ha, pa⟩
  have h2 : b ∈ l.filter p := List.mem_filter.mpr ⟨hb, pb⟩
  cases hl : l.filter p with
  | nil => rw [hl] at h1; cases h1
  | cons x xs =>
    rw [hl] at h h1 h2
    have : xs = [] := by cases xs with
      | nil => rfl
      | cons y ys => simp at h
    subst this
    simp only [List.mem_singleton] at h1 h2
    rw [h1, h2]

theorem part_mem {db : String → List ρ} {seen : List String} {rows : List (JRow ρ)}
    (hok : RowsOk db seen rows) {v : String} {r : ρ} (h : r ∈ partOf v rows) : r ∈ db v := by
  obtain ⟨row, hrow, hg⟩ := List.mem_filterMap.mp h
  exact (hok row hrow v r hg).1

theorem step_nodup_new {db : String → List ρ} {seen : List String} {rows : List (JRow ρ)}
    (hok : RowsOk db seen rows) {j : JoinStep ρ} (hr : Respects db j)
    (hrel : j.rel = .oneToMany ∨ j.rel = .oneToOne) (hfresh : j.tgt ∉ seen)
    (hdb : (db j.tgt).Nodup) (hsrc : (partOf j.src rows).Nodup) :
    (partOf j.tgt (stepJoin j (db j.tgt) rows)).Nodup := by
  rw [part_step_new (db j.tgt) rows (fun row hrow => by
    cases hg : dictGet row j.tgt with
    | none => rfl
    | some r => exact absurd (hok row hrow _ _ hg).2 hfresh)]
  have hA : ((partOf j.src rows).flatMap (fun r => (db j.tgt).filter (j.on r))).Nodup := by
    rw [List.nodup_flatMap]
    refine ⟨fun r _ => hdb.filter _, ?_⟩
    refine List.Pairwise.imp_of_mem ?_ hsrc
    intro a b ha hb hab t hta htb
    apply hab
    obtain ⟨h1, h2⟩ := List.mem_filter.mp hta
    obtain ⟨-, h3⟩ := List.mem_filter.mp htb
    exact eq_of_filter_le_one (hr.2 hrel t h1) (part_mem hok ha) (part_mem hok hb) h2 h3
  split
  · refine List.nodup_append'.mpr ⟨hA, hdb.filter _, ?_⟩
    intro t h1 h2
    obtain ⟨r, hr1, ht⟩ := List.mem_flatMap.mp h1
    obtain ⟨-, hnm⟩ := List.mem_filter.mp h2
    obtain ⟨row, hrow, hg⟩ := List.mem_filterMap.mp hr1
    have : isMatched j rows t = true := by
      unfold isMatched
      rw [List.any_eq_true]
      exact ⟨row, hrow, by rw [hg]; exact (List.mem_filter.mp ht).2⟩
    rw [this] at hnm
    cases hnm
  · simpa using hA

/-! Induction over the joins. -/

theorem joinedRows_snoc (db : String → List ρ) (base : String) (pre : List (JoinStep ρ))
    (j : JoinStep ρ) :
    joinedRows db base (pre ++ [j]) = stepJoin j (db j.tgt) (joinedRows db base pre) := by
  simp [joinedRows, List.foldl_append]

theorem Spec.FromShape.prefix {base : String} {pre : List (JoinStep ρ)} {j : JoinStep ρ}
    (h : FromShape base (pre ++ [j])) : FromShape base pre := by
  refine ⟨?_, ?_, ?_⟩
  · have := h.once; simp only [List.map_append] at this; exact this.of_append_left
  · intro c; exact h.baseOnce (by simp only [List.map_append, List.mem_append]; exact .inl c)
  · intro p k q e
    exact h.left p k (q ++ [j]) (by rw [e]; simp)

theorem Spec.FromShape.fresh {base : String} {pre : List (JoinStep ρ)} {j : JoinStep ρ}
    (h : FromShape base (pre ++ [j])) : j.tgt ∉ base :: pre.map (·.tgt) := by
  intro c
  rcases List.mem_cons.mp c with c | c
  · exact h.baseOnce (by simp [c])
  · have := h.once
    simp only [List.map_append, List.map_cons, List.map_nil] at this
    exact (List.nodup_append'.mp this).2.2 c (by simp)

theorem Spec.FromShape.src {base : String} {pre : List (JoinStep ρ)} {j : JoinStep ρ}
    (h : FromShape base (pre ++ [j])) : j.src ∈ base :: pre.map (·.tgt) := by
  rcases h.left pre j [] rfl with e | e
  · simp [e]
  · simp [e]

theorem rowsOk_joined (db : String → List ρ) (base : String) (joins : List (JoinStep ρ)) :
    RowsOk db (base :: joins.map (·.tgt)) (joinedRows db base joins) := by
  induction joins using List.reverseRecOn with
  | nil =>
    intro row hrow v r hg
    simp only [joinedRows, List.foldl_nil, List.mem_map] at hrow
    obtain ⟨x, hx, rfl⟩ := hrow
    simp only [dictGet] at hg
    split at hg
    · rename_i e; cases hg; exact ⟨e ▸ hx, by simp [e]⟩
    · cases hg
  | append_singleton pre j ih =>
    rw [joinedRows_snoc]
    have := rowsOk_step ih j
    simpa using this

theorem part_base (db : String → List ρ) (base : String) :
    partOf base (joinedRows db base []) = db base := by
  simp only [joinedRows, List.foldl_nil, partOf, List.filterMap_map]
  have : ((fun row => dictGet row base) ∘ fun r => [(base, r)]) = (some : ρ → Option ρ) := by
    funext t; exact dictGet_cons_eq _ _ _
  rw [this, List.filterMap_some]

theorem Spec.OnPath.mono {joins : List (JoinStep ρ)} {v : String} {k : JoinStep ρ} (more : List (JoinStep ρ))
    (h : OnPath joins v k) : OnPath (joins ++ more) v k := by
  induction h with
  | last h1 h2 => exact .last (by simp [h1]) h2
  | up _ h2 h3 ih => exact .up ih (by simp [h2]) h3

theorem Spec.OnPath.mem {joins : List (JoinStep ρ)} {v : String} {k : JoinStep ρ}
    (h : OnPath joins v k) : k ∈ joins := by
  cases h <;> assumption

/-- The last join is on no path to an earlier view. -/
theorem Spec.OnPath.shrink {base : String} {pre : List (JoinStep ρ)} {j : JoinStep ρ} {v : String}
    (hs : FromShape base (pre ++ [j])) (hv : v ≠ j.tgt) {k : JoinStep ρ}
    (h : OnPath (pre ++ [j]) v k) : OnPath pre v k := by
  induction h with
  | @last k h1 h2 =>
    rcases List.mem_append.mp h1 with h1 | h1
    · exact .last h1 h2
    · simp only [List.mem_singleton] at h1
      subst h1
      exact absurd h2.symm hv
  | @up k l h1 h2 h3 ih =>
    rcases List.mem_append.mp h2 with h2 | h2
    · exact .up ih h2 h3
    · simp only [List.mem_singleton] at h2
      subst h2
      exfalso
      obtain ⟨a, b, e⟩ := List.append_of_mem ih.mem
      have := hs.left a l (b ++ [k]) (by rw [e]; simp)
      apply hs.fresh
      rw [h3]
      rcases this with c | c
      · simp [c]
      · rw [e]; simp only [List.map_append, List.mem_cons, List.mem_append]
        exact .inr (.inl c)

theorem Spec.OnPath.extend {joins : List (JoinStep ρ)} {j : JoinStep ρ} (hj : j ∈ joins) {k : JoinStep ρ}
    (h : OnPath joins j.src k) : OnPath joins j.tgt k := by
  induction h with
  | last h1 h2 => exact .up (.last hj rfl) h1 h2
  | up _ h2 h3 ih => exact .up ih h2 h3

theorem nodup_of_unrepeated (db : String → List ρ) (base : String)
    (hdb : ∀ v, (db v).Nodup) (joins : List (JoinStep ρ)) (hs : FromShape base joins)
    (hr : ∀ j ∈ joins, Respects db j) :
    ∀ v ∈ base :: joins.map (·.tgt), Unrepeated joins v → (partOf v (joinedRows db base joins)).Nodup := by
  induction joins using List.reverseRecOn with
  | nil =>
    intro v hv _
    simp only [List.map_nil, List.mem_singleton] at hv
    subst hv
    rw [part_base]
    exact hdb v
  | append_singleton pre j ih =>
    intro v hv hu
    rw [joinedRows_snoc]
    have hok := rowsOk_joined db base pre
    have hfresh := FromShape.fresh hs
    by_cases e : v = j.tgt
    · subst e
      obtain ⟨u1, u2, u3⟩ := hu
      have hj : OnPath (pre ++ [j]) j.tgt j := .last (by simp) rfl
      have hsv : j.src ≠ j.tgt := fun c => hfresh (c ▸ FromShape.src hs)
      have hsrc := ih (FromShape.prefix hs) (fun k hk => hr k (by simp [hk])) j.src (FromShape.src hs) ⟨
        fun k hk => u1 k (by simp [hk]),
        fun k hk hrel => by
          have := u2 k (by simp [hk]) hrel
          cases this with
          | last h1 h2 =>
            exfalso
            apply hfresh
            rw [← h2]; simp only [List.mem_cons, List.mem_map]; exact .inr ⟨k, hk, rfl⟩
          | @up _ l h1 h2 h3 =>
            -- the step above the last join is the last join itself, or is above `j.src`
            have aux : ∀ {m}, OnPath (pre ++ [j]) j.tgt m → m = j ∨ OnPath (pre ++ [j]) j.src m := by
              intro m hm
              induction hm with
              | @last m h1 h2 =>
                left
                rcases List.mem_append.mp h1 with h1 | h1
                · exfalso; apply hfresh; rw [← h2]
                  simp only [List.mem_cons, List.mem_map]; exact .inr ⟨m, h1, rfl⟩
                · simpa using h1
              | @up m l h1 h2 h3 ih2 =>
                right
                rcases ih2 with rfl | h
                · exact .last h2 h3
                · exact .up h h2 h3
            rcases aux (u2 k (by simp [hk]) hrel) with rfl | h
            · exact absurd (List.mem_cons_of_mem _ (List.mem_map.mpr ⟨k, hk, rfl⟩)) hfresh
            · exact h.shrink hs hsv,
        fun k hk => u3 k (OnPath.extend (by simp) (hk.mono [j]))⟩
      refine step_nodup_new hok (hr j (by simp)) ?_ hfresh (hdb _) hsrc
      have h1 := u1 j (by simp)
      have h2 := u3 j hj
      cases hrel : j.rel <;> simp_all
    · have hv' : v ∈ base :: pre.map (·.tgt) := by
        simp only [List.map_append, List.map_cons, List.map_nil, List.mem_cons, List.mem_append,
          List.not_mem_nil, or_false] at hv ⊢
        rcases hv with h | h | h
        · exact .inl h
        · exact .inr h
        · exact absurd h e
      obtain ⟨u1, u2, u3⟩ := hu
      have hnp : ¬ OnPath (pre ++ [j]) v j := by
        intro c
        have := (c.shrink hs e).mem
        exact hfresh (List.mem_cons_of_mem _ (List.mem_map.mpr ⟨j, this, rfl⟩))
      have hrel : j.rel = .manyToOne ∨ j.rel = .oneToOne := by
        have h1 := u1 j (by simp)
        have h2 := fun c => hnp (u2 j (by simp) c)
        cases hrel : j.rel <;> simp_all
      have := ih (FromShape.prefix hs) (fun k hk => hr k (by simp [hk])) v hv' ⟨
        fun k hk => u1 k (by simp [hk]),
        fun k hk hrel => (u2 k (by simp [hk]) hrel).shrink hs e,
        fun k hk => u3 k (hk.mono [j])⟩
      exact this.sublist (part_step_ne (Ne.symm e) _ _ (matching_le_one hok (hr j (by simp)) hrel)).1

end
end ML
