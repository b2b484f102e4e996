import Verif.Joined.Lemmas
/-
Lemmas for C80: conditions on the rows of some views can be applied to their tables before the joins.
-/
set_option autoImplicit false
namespace ML
open Spec

section
variable {ρ : Type}

/-- The row has a visible row of each of these views (for the proofs; it models no file in /repo). -/
def keepAll (see : String → ρ → Bool) (T : List String) (row : JRow ρ) : Bool :=
  T.all (fun u => match dictGet row u with | none => false | some r => see u r)

theorem keepAll_cons_ne {see : String → ρ → Bool} {T : List String} {t : String} (h : t ∉ T) (r : ρ) (row : JRow ρ) :
    keepAll see T ((t, r) :: row) = keepAll see T row := by
  unfold keepAll
  rw [Bool.eq_iff_iff, List.all_eq_true, List.all_eq_true]
  have hget : ∀ u ∈ T, dictGet ((t, r) :: row) u = dictGet row u := fun u hu => dictGet_cons_ne (fun (c : t = u) => h (c ▸ hu)) r row
  exact ⟨fun hh u hu => by have := hh u hu; rwa [hget u hu] at this, fun hh u hu => by rw [hget u hu]; exact hh u hu⟩

theorem keepAll_add (see : String → ρ → Bool) (T : List String) (t : String) (row : JRow ρ) :
    keepAll see (T ++ [t]) row = (keepAll see T row && match dictGet row t with | none => false | some r => see t r) := by
  simp [keepAll, List.all_append]

/-- The rows made of one row, left or inner. -/
def madeOf (j : JoinStep ρ) (table : List ρ) (row : JRow ρ) : List (JRow ρ) :=
  if j.kind = .inner then innerRows j table row else leftRows j table row

theorem matching_filter (j : JoinStep ρ) (p : ρ → Bool) (table : List ρ) (row : JRow ρ) :
    matching j (table.filter p) row = (matching j table row).filter p := by
  unfold matching
  cases dictGet row j.src with
  | none => rfl
  | some r =>
    simp only [List.filter_filter]
    exact List.filter_congr fun t _ => Bool.and_comm _ _

theorem filter_made_skip {see : String → ρ → Bool} {T : List String} {j : JoinStep ρ} (h : j.tgt ∉ T) (table : List ρ) (row : JRow ρ) :
    (madeOf j table row).filter (keepAll see T) = if keepAll see T row then madeOf j table row else [] := by
  have hall : ∀ x ∈ madeOf j table row, keepAll see T x = keepAll see T row := by
    intro x hx
    unfold madeOf at hx
    split at hx
    · obtain ⟨t, -, rfl⟩ := List.mem_map.mp hx
      exact keepAll_cons_ne h t row
    · rcases mem_leftRows hx with rfl | ⟨t, -, rfl⟩
      · rfl
      · exact keepAll_cons_ne h t row
  split
  · rename_i hk
    exact List.filter_eq_self.mpr fun x hx => by rw [hall x hx]; exact hk
  · rename_i hk
    exact List.filter_eq_nil_iff.mpr fun x hx => by rw [hall x hx]; exact hk

theorem filter_made_add {see : String → ρ → Bool} {T : List String} {j : JoinStep ρ} (h : j.tgt ∉ T) (table : List ρ) (row : JRow ρ)
    (hrow : dictGet row j.tgt = none) :
    (madeOf j table row).filter (keepAll see (T ++ [j.tgt])) =
      if keepAll see T row then ((matching j table row).filter (see j.tgt)).map (fun t => (j.tgt, t) :: row) else [] := by
  have hcons : ∀ t : ρ, keepAll see (T ++ [j.tgt]) ((j.tgt, t) :: row) = (keepAll see T row && see j.tgt t) := by
    intro t
    rw [keepAll_add, keepAll_cons_ne h, dictGet_cons_eq]
  have hself : keepAll see (T ++ [j.tgt]) row = false := by
    rw [keepAll_add, hrow]
    simp
  have hmap : ∀ l : List ρ, (l.map (fun t => (j.tgt, t) :: row)).filter (keepAll see (T ++ [j.tgt])) =
      if keepAll see T row then (l.filter (see j.tgt)).map (fun t => (j.tgt, t) :: row) else [] := by
    intro l
    rw [List.filter_map]
    have : (keepAll see (T ++ [j.tgt]) ∘ fun t => (j.tgt, t) :: row) = fun t => keepAll see T row && see j.tgt t := by
      funext t
      exact hcons t
    rw [this]
    split
    · rename_i hk
      simp [hk]
    · rename_i hk
      simp [hk]
  unfold madeOf
  split
  · exact hmap _
  · unfold leftRows
    split
    · rename_i hm
      rw [List.filter_cons, hself]
      simp [hm]
    · rename_i t ts hm
      rw [hm]
      exact hmap _

theorem flatMap_filter_if {α β : Type} (f : α → List β) (p : α → Bool) (l : List α) :
    l.flatMap (fun a => if p a then f a else []) = (l.filter p).flatMap f := by
  induction l with
  | nil => rfl
  | cons a l ih =>
    rw [List.flatMap_cons, List.filter_cons, ih]
    cases hp : p a <;> simp

theorem stepJoin_made (j : JoinStep ρ) (table : List ρ) (rows : List (JRow ρ)) :
    stepJoin j table rows = rows.flatMap (madeOf j table) ++
      (if j.kind = .full then (table.filter (fun t => !isMatched j rows t)).map (fun t => [(j.tgt, t)]) else []) := by
  unfold stepJoin madeOf
  cases hk : j.kind <;> simp

theorem keepAll_single {see : String → ρ → Bool} {T : List String} {t : String} (h : t ∉ T) (hT : T ≠ []) (r : ρ) :
    keepAll see T [(t, r)] = false := by
  rw [keepAll_cons_ne h]
  cases T with
  | nil => exact absurd rfl hT
  | cons u T => simp [keepAll, dictGet]

/-- One join: the rows kept are the same when the table of a restricted view is restricted before. -/
theorem step_push {see : String → ρ → Bool} {T : List String} {j : JoinStep ρ} (h : j.tgt ∉ T) (S : Prop) [Decidable S]
    (hsee : ¬ S → ∀ r, see j.tgt r = true) (table : List ρ) {R R' : List (JRow ρ)} (hR : ∀ row ∈ R, dictGet row j.tgt = none)
    (hR' : ∀ row ∈ R', dictGet row j.tgt = none) (heq : R.filter (keepAll see T) = R'.filter (keepAll see T)) :
    (stepJoin j table R).filter (keepAll see (if S then T ++ [j.tgt] else T)) =
      (stepJoin j (table.filter (see j.tgt)) R').filter (keepAll see (if S then T ++ [j.tgt] else T)) := by
  by_cases hS : S
  · simp only [if_pos hS]
    rw [stepJoin_made, stepJoin_made, List.filter_append, List.filter_append]
    congr 1
    · rw [List.filter_flatMap, List.filter_flatMap,
        flatMap_congr' (fun row hr => filter_made_add h table row (hR row hr)),
        flatMap_congr' (fun row hr => filter_made_add h (table.filter (see j.tgt)) row (hR' row hr)),
        flatMap_filter_if, flatMap_filter_if, heq]
      refine flatMap_congr' fun row _ => ?_
      rw [matching_filter, List.filter_filter]
      simp
    · split
      · by_cases hT : T = []
        · subst hT
          have hRR : R = R' := by
            have h1 : ∀ l : List (JRow ρ), l.filter (keepAll see []) = l := fun l => List.filter_eq_self.mpr (fun _ _ => rfl)
            rwa [h1, h1] at heq
          subst hRR
          rw [List.filter_map, List.filter_map, List.filter_filter, List.filter_filter, List.filter_filter]
          congr 1
          refine List.filter_congr fun t _ => ?_
          have : (keepAll see ([] ++ [j.tgt]) ∘ fun t => [(j.tgt, t)]) t = see j.tgt t := by
            simp [keepAll, dictGet]
          rw [this]
          cases see j.tgt t <;> simp
        · have hdrop : ∀ l : List ρ, (l.map (fun t => [(j.tgt, t)])).filter (keepAll see (T ++ [j.tgt])) = [] := by
            intro l
            refine List.filter_eq_nil_iff.mpr fun x hx => ?_
            obtain ⟨t, -, rfl⟩ := List.mem_map.mp hx
            rw [keepAll_add, keepAll_single h hT]
            simp
          rw [hdrop, hdrop]
      · rfl
  · simp only [if_neg hS]
    have htab : table.filter (see j.tgt) = table := List.filter_eq_self.mpr fun r _ => hsee hS r
    rw [htab, stepJoin_made, stepJoin_made, List.filter_append, List.filter_append]
    congr 1
    · rw [List.filter_flatMap, List.filter_flatMap,
        flatMap_congr' (fun row _ => filter_made_skip h table row), flatMap_congr' (fun row _ => filter_made_skip h table row),
        flatMap_filter_if, flatMap_filter_if, heq]
    · split
      · by_cases hT : T = []
        · subst hT
          have hRR : R = R' := by
            have h1 : ∀ l : List (JRow ρ), l.filter (keepAll see []) = l := fun l => List.filter_eq_self.mpr (fun _ _ => rfl)
            rwa [h1, h1] at heq
          rw [hRR]
        · have hdrop : ∀ l : List ρ, (l.map (fun t => [(j.tgt, t)])).filter (keepAll see T) = [] := by
            intro l
            refine List.filter_eq_nil_iff.mpr fun x hx => ?_
            obtain ⟨t, -, rfl⟩ := List.mem_map.mp hx
            rw [keepAll_single h hT]
            simp
          rw [hdrop, hdrop]
      · rfl

theorem joined_fresh (db : String → List ρ) {base : String} {pre : List (JoinStep ρ)} {t : String} (h : t ∉ base :: pre.map (·.tgt)) :
    ∀ row ∈ joinedRows db base pre, dictGet row t = none := by
  intro row hrow
  cases hg : dictGet row t with
  | none => rfl
  | some r => exact absurd (rowsOk_joined db base pre row hrow t r hg).2 h

/-- All joins: restricting the tables of the restricted views first does not change the rows kept. -/
theorem joined_push (see : String → ρ → Bool) (S : String → Bool) (hsee : ∀ v, S v = false → ∀ r, see v r = true) (db : String → List ρ)
    {base : String} {joins : List (JoinStep ρ)} (hs : FromShape base joins) :
    (joinedRows db base joins).filter (keepAll see ((base :: joins.map (·.tgt)).filter S)) =
      (joinedRows (fun v => (db v).filter (see v)) base joins).filter (keepAll see ((base :: joins.map (·.tgt)).filter S)) := by
  induction joins using List.reverseRecOn with
  | nil =>
    simp only [joinedRows, List.foldl_nil, List.map_nil]
    cases hb : S base with
    | false =>
      have : (db base).filter (see base) = db base := List.filter_eq_self.mpr fun r _ => hsee base hb r
      rw [this]
    | true =>
      have hT : [base].filter S = [base] := by simp [hb]
      rw [hT, List.filter_map, List.filter_map, List.filter_filter]
      congr 1
      refine List.filter_congr fun r _ => ?_
      have : (keepAll see [base] ∘ fun r => [(base, r)]) r = see base r := by simp [keepAll, dictGet]
      rw [this, Bool.and_self]
  | append_singleton pre j ih =>
    have hfresh := hs.fresh
    have hT : (base :: (pre ++ [j]).map (·.tgt)).filter S =
        if S j.tgt = true then (base :: pre.map (·.tgt)).filter S ++ [j.tgt] else (base :: pre.map (·.tgt)).filter S := by
      rw [List.map_append, ← List.cons_append, List.filter_append]
      split
      · rename_i h; simp [h]
      · rename_i h; simp [h]
    rw [hT, joinedRows_snoc, joinedRows_snoc]
    exact step_push (fun c => hfresh (List.mem_of_mem_filter c)) (S j.tgt = true) (fun h => hsee _ (by simpa using h)) (db j.tgt)
      (joined_fresh db hfresh) (joined_fresh _ hfresh) (ih hs.prefix)

/-- Two databases that have the same visible rows keep the same rows. -/
theorem joined_same (see : String → ρ → Bool) (S : String → Bool) (hsee : ∀ v, S v = false → ∀ r, see v r = true) (db db' : String → List ρ)
    {base : String} {joins : List (JoinStep ρ)} (hs : FromShape base joins)
    (h : ∀ v ∈ base :: joins.map (·.tgt), (db v).filter (see v) = (db' v).filter (see v)) :
    (joinedRows db base joins).filter (keepAll see ((base :: joins.map (·.tgt)).filter S)) =
      (joinedRows db' base joins).filter (keepAll see ((base :: joins.map (·.tgt)).filter S)) := by
  rw [joined_push see S hsee db hs, joined_push see S hsee db' hs]
  congr 1
  have : ∀ (joins : List (JoinStep ρ)), (∀ v ∈ base :: joins.map (·.tgt), (db v).filter (see v) = (db' v).filter (see v)) →
      joinedRows (fun v => (db v).filter (see v)) base joins = joinedRows (fun v => (db' v).filter (see v)) base joins := by
    intro joins
    induction joins using List.reverseRecOn with
    | nil =>
      intro h
      simp only [joinedRows, List.foldl_nil]
      rw [h base (by simp)]
    | append_singleton pre j ih =>
      intro h
      rw [joinedRows_snoc, joinedRows_snoc, ih (fun v hv => h v (by
        rcases List.mem_cons.mp hv with c | c
        · simp [c]
        · simp only [List.map_append, List.mem_cons, List.mem_append]; exact .inr (.inl c))), h j.tgt (by simp)]
  exact this joins h

end
end ML
