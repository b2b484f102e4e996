import Verif.Joined.Lemmas
/-
For every sequence of joins that the conditions of C20 exclude, data that respect the declared
relationships and repeat the reported key.
-/
set_option autoImplicit false
namespace ML
open Spec

section
variable {ρ : Type}

theorem tgt_inj {joins : List (JoinStep ρ)} (h : (joins.map (·.tgt)).Nodup) {a b : JoinStep ρ}
    (ha : a ∈ joins) (hb : b ∈ joins) (e : a.tgt = b.tgt) : a = b :=
  List.inj_on_of_nodup_map h ha hb e

theorem onPath_split {base : String} {joins : List (JoinStep ρ)} (hs : FromShape base joins)
    {j : JoinStep ρ} (hj : j ∈ joins) {m : JoinStep ρ} (h : OnPath joins j.tgt m) :
    m = j ∨ OnPath joins j.src m := by
  induction h with
  | last h1 h2 => exact .inl (tgt_inj hs.once h1 hj h2)
  | up _ h2 h3 ih =>
    rcases ih with rfl | h
    · exact .inr (.last h2 h3)
    · exact .inr (.up h h2 h3)

theorem onPath_shrinkMany {base : String} {pre : List (JoinStep ρ)} (more : List (JoinStep ρ))
    (hs : FromShape base (pre ++ more)) {v : String} (hv : v ∉ more.map (·.tgt)) {k : JoinStep ρ}
    (h : OnPath (pre ++ more) v k) : OnPath pre v k := by
  induction more using List.reverseRecOn with
  | nil => simpa using h
  | append_singleton more j ih =>
    rw [← List.append_assoc] at hs h
    exact ih hs.prefix (fun c => hv (by simp only [List.map_append, List.mem_append]; exact .inl c))
      (h.shrink hs (fun c => hv (by simp [c])))

/-- A view joined before `e` does not depend on `e`. -/
theorem not_below {base : String} {pre post : List (JoinStep ρ)} {e : JoinStep ρ}
    (hs : FromShape base (pre ++ e :: post)) {v : String} (hv : v ∈ base :: pre.map (·.tgt)) :
    ¬ OnPath (pre ++ e :: post) v e := by
  intro h
  have h1 := hs.once
  simp only [List.map_append] at h1
  have hdis := (List.nodup_append'.mp h1).2.2
  have hv' : v ∉ (e :: post).map (·.tgt) := by
    intro c
    rcases List.mem_cons.mp hv with rfl | hv
    · exact hs.baseOnce (by simp only [List.map_append, List.mem_append]; exact .inr c)
    · exact hdis hv c
  have := (onPath_shrinkMany (e :: post) hs hv' h).mem
  exact hdis (List.mem_map.mpr ⟨e, this, rfl⟩) (by simp)

/-- A step in which every row on either side has a partner. -/
theorem step_all_matched (j : JoinStep ρ) (table : List ρ) (rows : List (JRow ρ))
    (h1 : ∀ row ∈ rows, matching j table row ≠ [])
    (h2 : ∀ t ∈ table, ∃ row ∈ rows, t ∈ matching j table row) :
    stepJoin j table rows = rows.flatMap (innerRows j table) := by
  have hl : rows.flatMap (leftRows j table) = rows.flatMap (innerRows j table) := by
    apply flatMap_congr'
    intro row hr
    unfold leftRows innerRows
    cases hm : matching j table row with
    | nil => exact absurd hm (h1 row hr)
    | cons t ts => rfl
  unfold stepJoin
  cases j.kind with
  | left => exact hl
  | inner => rfl
  | full =>
    simp only
    have : table.filter (fun t => !isMatched j rows t) = [] := by
      rw [List.filter_eq_nil_iff]
      intro t ht
      obtain ⟨row, hr, hm⟩ := h2 t ht
      have : isMatched j rows t = true := by
        unfold isMatched
        rw [List.any_eq_true]
        refine ⟨row, hr, ?_⟩
        unfold matching at hm
        cases hd : dictGet row j.src with
        | none => rw [hd] at hm; cases hm
        | some r => rw [hd] at hm; exact (List.mem_filter.mp hm).2
      simp [this]
    rw [hl, this]
    simp

end

open Classical

/-- The table of a view: two rows on one side of the join `e`, one on the other. -/
noncomputable def cTable (joins : List (JoinStep Bool)) (e : JoinStep Bool) (two : Bool) (v : String) :
    List Bool :=
  if (OnPath joins v e ↔ two = true) then [false, true] else [false]

/-- The value of view `v` in the row numbered `b`. -/
noncomputable def cVal (joins : List (JoinStep Bool)) (e : JoinStep Bool) (two : Bool) (v : String)
    (b : Bool) : Bool :=
  if (OnPath joins v e ↔ two = true) then b else false

/-- The conditions: equality, except that the join `e` matches everything. -/
def cOn (e j : JoinStep Bool) (s t : Bool) : Bool := if j.tgt = e.tgt then true else s == t

/-- The joins with these conditions. -/
def cJoins (e : JoinStep Bool) (joins : List (JoinStep Bool)) : List (JoinStep Bool) :=
  joins.map (fun j => { j with on := cOn e j })

/-- The row numbered `b`. -/
noncomputable def cRow (joins : List (JoinStep Bool)) (e : JoinStep Bool) (two : Bool) (base : String)
    (pre : List (JoinStep Bool)) (b : Bool) : JRow Bool :=
  pre.reverse.map (fun j => (j.tgt, cVal joins e two j.tgt b)) ++ [(base, cVal joins e two base b)]

theorem cRow_snoc (joins : List (JoinStep Bool)) (e : JoinStep Bool) (two : Bool) (base : String)
    (pre : List (JoinStep Bool)) (j : JoinStep Bool) (b : Bool) :
    cRow joins e two base (pre ++ [j]) b =
      (j.tgt, cVal joins e two j.tgt b) :: cRow joins e two base pre b := by
  simp [cRow]

theorem cRow_get (joins : List (JoinStep Bool)) (e : JoinStep Bool) (two : Bool) (base : String)
    (pre : List (JoinStep Bool)) (b : Bool) (v : String) (hv : v ∈ base :: pre.map (·.tgt)) :
    dictGet (cRow joins e two base pre b) v = some (cVal joins e two v b) := by
  induction pre using List.reverseRecOn with
  | nil =>
    simp only [List.map_nil, List.mem_singleton] at hv
    subst hv
    simp [cRow, dictGet]
  | append_singleton pre j ih =>
    rw [cRow_snoc]
    by_cases c : j.tgt = v
    · subst c; rw [dictGet_cons_eq]
    · rw [dictGet_cons_ne c]
      apply ih
      simp only [List.map_append, List.map_cons, List.map_nil, List.mem_cons, List.mem_append,
        List.not_mem_nil, or_false] at hv ⊢
      rcases hv with h | h | h
      · exact .inl h
      · exact .inr h
      · exact absurd h.symm c

/-- Away from `e` both ends of a join are on the same side. -/
theorem same_side {base : String} {joins : List (JoinStep Bool)} (hs : FromShape base joins)
    {e j : JoinStep Bool} (hj : j ∈ joins) (hne : j.tgt ≠ e.tgt) :
    OnPath joins j.src e ↔ OnPath joins j.tgt e := by
  constructor
  · exact fun h => h.extend hj
  · intro h
    rcases onPath_split hs hj h with rfl | h
    · exact absurd rfl hne
    · exact h

theorem cVal_same {base : String} {joins : List (JoinStep Bool)} (hs : FromShape base joins)
    {e j : JoinStep Bool} (hj : j ∈ joins) (hne : j.tgt ≠ e.tgt) (two b : Bool) :
    (cTable joins e two j.tgt).filter (fun t => cVal joins e two j.src b == t) =
      [cVal joins e two j.tgt b] := by
  unfold cVal cTable
  simp only [same_side hs hj hne]
  split
  · cases b <;> rfl
  · rfl

theorem respects_counter {base : String} {joins pre post : List (JoinStep Bool)} {e : JoinStep Bool}
    (hs : FromShape base joins) (hsplit : joins = pre ++ e :: post) (two : Bool)
    (hrel : if two then e.rel = .oneToMany else e.rel = .manyToOne) :
    ∀ j ∈ cJoins e joins, Respects (cTable joins e two) j := by
  intro j hj
  obtain ⟨k, hk, rfl⟩ := List.mem_map.mp hj
  have he : e ∈ joins := by rw [hsplit]; simp
  have htab : ∀ v, cTable joins e two v = [false, true] ∨ cTable joins e two v = [false] := by
    intro v
    unfold cTable
    split
    · exact .inl rfl
    · exact .inr rfl
  by_cases c : k.tgt = e.tgt
  · have := tgt_inj hs.once hk he c
    subst this
    have hsrc : ¬ OnPath joins k.src k := by
      rw [hsplit] at hs ⊢
      apply not_below hs
      rcases hs.left pre k post rfl with e | e
      · simp [e]
      · simp [e]
    have htgt : OnPath joins k.tgt k := .last hk rfl
    cases two with
    | true =>
      simp only [if_true] at hrel
      refine ⟨fun h => by simp [hrel] at h, fun _ t _ => ?_⟩
      have : cTable joins k true k.src = [false] := by unfold cTable; simp [hsrc]
      simp only [this]
      cases h : cOn k k false t <;> simp [h]
    | false =>
      simp only [Bool.false_eq_true, if_false] at hrel
      refine ⟨fun _ s _ => ?_, fun h => by simp [hrel] at h⟩
      have : cTable joins k false k.tgt = [false] := by unfold cTable; simp [htgt]
      simp only [this]
      cases h : cOn k k s false <;> simp [h]
  · refine ⟨fun _ s _ => ?_, fun _ t _ => ?_⟩
    · simp only [cOn, c, if_false]
      rcases htab k.tgt with h | h <;> rw [h] <;> cases s <;> decide
    · simp only [cOn, c, if_false]
      rcases htab k.src with h | h <;> rw [h] <;> cases t <;> decide

/-- The rows of the counterexample. -/
theorem counter_rows {base : String} {joins : List (JoinStep Bool)} {e : JoinStep Bool}
    (hs : FromShape base joins) (he : e ∈ joins) (two : Bool) :
    ∀ pre post, joins = pre ++ post →
      joinedRows (cTable joins e two) base (cJoins e pre) =
        (if two = false ∨ e ∈ pre then [false, true] else [false]).map (cRow joins e two base pre) := by
  intro pre
  induction pre using List.reverseRecOn with
  | nil =>
    intro post hsplit
    have hb : ¬ OnPath joins base e := by
      obtain ⟨a, b, hab⟩ := List.append_of_mem he
      rw [hab] at hs ⊢
      exact not_below hs (by simp)
    simp only [joinedRows, cJoins, List.map_nil, List.foldl_nil, List.not_mem_nil, or_false]
    unfold cTable
    simp only [hb]
    cases two <;> simp [cRow, cVal, hb]
  | append_singleton pre j ih =>
    intro post hsplit
    have hsplit' : joins = pre ++ j :: post := by rw [hsplit]; simp
    have ih := ih (j :: post) hsplit'
    have hj : j ∈ joins := by rw [hsplit']; simp
    have hsrc : j.src ∈ base :: pre.map (·.tgt) := by
      rcases hs.left pre j post hsplit' with h | h
      · simp [h]
      · simp [h]
    rw [show cJoins e (pre ++ [j]) = cJoins e pre ++ [{ j with on := cOn e j }] by simp [cJoins],
      joinedRows_snoc, ih]
    -- the partners of each row
    have hmatch : ∀ b, matching { j with on := cOn e j } (cTable joins e two j.tgt)
        (cRow joins e two base pre b) =
        (cTable joins e two j.tgt).filter (fun t => cOn e j (cVal joins e two j.src b) t) := by
      intro b
      unfold matching
      simp only [cRow_get joins e two base pre b j.src hsrc]
    by_cases c : j.tgt = e.tgt
    · have := tgt_inj hs.once hj he c
      subst this
      have htgt : OnPath joins j.tgt j := .last hj rfl
      have hnotin : j ∉ pre := by
        intro h
        have := hs.once
        rw [hsplit'] at this
        simp only [List.map_append] at this
        exact (List.nodup_append'.mp this).2.2 (List.mem_map.mpr ⟨j, h, rfl⟩) (by simp)
      have hfilt : ∀ b, (cTable joins j two j.tgt).filter
          (fun t => cOn j j (cVal joins j two j.src b) t) = cTable joins j two j.tgt := by
        intro b; simp [cOn]
      cases two with
      | false =>
        have htab : cTable joins j false j.tgt = [false] := by unfold cTable; simp [htgt]
        have hm := fun b => (hmatch b).trans ((hfilt b).trans htab)
        simp only [true_or, if_true]
        rw [step_all_matched]
        · simp only [List.map_cons, List.map_nil, List.flatMap_cons, List.flatMap_nil, innerRows,
            hm, cRow_snoc, List.append_nil]
          simp [cVal, htgt]
        · intro row hr
          simp only [List.map_cons, List.map_nil, List.mem_cons, List.not_mem_nil, or_false] at hr
          rcases hr with rfl | rfl <;> rw [hmatch, hfilt, htab] <;> simp
        · intro t ht
          exact ⟨cRow joins j false base pre false, by simp, by rw [hmatch, hfilt]; exact ht⟩
      | true =>
        have htab : cTable joins j true j.tgt = [false, true] := by unfold cTable; simp [htgt]
        have hm := fun b => (hmatch b).trans ((hfilt b).trans htab)
        have hbefore : ∀ v ∈ base :: pre.map (·.tgt), ∀ b, cVal joins j true v b = false := by
          intro v hv b
          have : ¬ OnPath joins v j := by
            rw [hsplit'] at hs ⊢
            exact not_below hs hv
          unfold cVal
          simp [this]
        have hrow : ∀ b, cRow joins j true base pre b = cRow joins j true base pre false := by
          intro b
          unfold cRow
          rw [hbefore base (by simp), hbefore base (by simp)]
          congr 1
          apply List.map_congr_left
          intro k hk
          have hm : k.tgt ∈ base :: pre.map (·.tgt) :=
            List.mem_cons_of_mem _ (List.mem_map.mpr ⟨k, List.mem_reverse.mp hk, rfl⟩)
          rw [hbefore _ hm, hbefore _ hm]
        simp only [Bool.true_eq_false, hnotin, or_false, if_false, List.mem_append,
          List.mem_singleton, or_true, if_true]
        rw [step_all_matched]
        · simp only [List.map_cons, List.map_nil, List.flatMap_cons, List.flatMap_nil, innerRows,
            hm, cRow_snoc, List.append_nil, hrow true]
          simp [cVal, htgt]
        · intro row hr
          simp only [List.map_cons, List.map_nil, List.mem_cons, List.not_mem_nil, or_false] at hr
          subst hr
          rw [hmatch, hfilt, htab]; simp
        · intro t ht
          exact ⟨cRow joins j true base pre false, by simp, by rw [hmatch, hfilt]; exact ht⟩
    · have hne : j ≠ e := fun h => c (by rw [h])
      have hm : ∀ b, matching { j with on := cOn e j } (cTable joins e two j.tgt)
          (cRow joins e two base pre b) = [cVal joins e two j.tgt b] := by
        intro b
        rw [hmatch]
        simp only [cOn, c, if_false]
        exact cVal_same hs hj c two b
      have hin : (two = false ∨ e ∈ pre ++ [j]) ↔ (two = false ∨ e ∈ pre) := by
        simp [Ne.symm hne]
      simp only [hin]
      rw [step_all_matched]
      · generalize (if two = false ∨ e ∈ pre then [false, true] else [false]) = bs
        induction bs with
        | nil => rfl
        | cons b bs ihb =>
          simp only [List.map_cons, List.flatMap_cons, ihb]
          rw [cRow_snoc]
          simp only [innerRows, hm, List.map_cons, List.map_nil, List.cons_append, List.nil_append]
      · intro row hr
        obtain ⟨b, -, rfl⟩ := List.mem_map.mp hr
        rw [hm]; simp
      · intro t ht
        -- every row of the joined table is some row's partner
        have : t = cVal joins e two j.tgt t := by
          unfold cTable at ht
          unfold cVal
          split
          · rfl
          · rename_i h; rw [if_neg h] at ht; simpa using ht
        by_cases hbs : two = false ∨ e ∈ pre
        · refine ⟨cRow joins e two base pre t, ?_, by rw [hm]; exact List.mem_singleton.mpr this⟩
          rw [if_pos hbs]
          cases t <;> simp
        · -- before `e` every table has one row
          have h2 : two = true := by
            cases two
            · exact absurd (Or.inl rfl) hbs
            · rfl
          subst h2
          have hnb : ¬ OnPath joins j.tgt e := by
            have hep : e ∈ post := by
              rw [hsplit'] at he
              simp only [List.mem_append, List.mem_cons] at he
              rcases he with h | h | h
              · exact absurd (Or.inr h) hbs
              · exact absurd h.symm hne
              · exact h
            obtain ⟨a, b, hab⟩ := List.append_of_mem hep
            have hjs : joins = (pre ++ j :: a) ++ e :: b := by rw [hsplit', hab]; simp
            rw [hjs] at hs ⊢
            exact not_below hs (by simp)
          have htf : t = false := by
            unfold cTable at ht
            simpa [hnb] using ht
          refine ⟨cRow joins e true base pre false, ?_, by rw [hm, ← htf]; exact List.mem_singleton.mpr this⟩
          rw [if_neg hbs]
          simp

end ML
