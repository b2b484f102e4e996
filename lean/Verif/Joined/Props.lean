import Verif.Joined.Counter
import Verif.Design.Props
/-
C19 Many-to-one joins never duplicate base rows.
C20 The functional primary key is unique in the joined result.
-/
set_option autoImplicit false
namespace ML
open Spec

section
variable {ρ : Type}

/-- The joins of the designer as steps of the FROM clause: relationship and join word come from the
join graph, the conditions are given. -/
def stepsOf (g : Graph) (on : Pair → ρ → ρ → Bool) (joins : List Pair) : List (JoinStep ρ) :=
  joins.map (fun p => match edgeAt g p.1 p.2 with
    | some e => ⟨p.1, p.2, e.rel, joinKind e.jtype, on p⟩
    | none => ⟨p.1, p.2, .manyToMany, .left, on p⟩)

theorem stepsOf_tgt (g : Graph) (on : Pair → ρ → ρ → Bool) (joins : List Pair) :
    (stepsOf g on joins).map (·.tgt) = joins.map (·.2) := by
  unfold stepsOf
  rw [List.map_map]
  apply List.map_congr_left
  intro p _
  simp only [Function.comp]
  cases edgeAt g p.1 p.2 <;> rfl

theorem stepsOf_pair {g : Graph} {on : Pair → ρ → ρ → Bool} {joins : List Pair} :
    (stepsOf g on joins).map (fun j => (j.src, j.tgt)) = joins := by
  unfold stepsOf
  rw [List.map_map]
  conv => rhs; rw [← List.map_id joins]
  apply List.map_congr_left
  intro p _
  simp only [Function.comp, id]
  cases edgeAt g p.1 p.2 <;> rfl

/-- What C17 proves of the designer is the shape that C19 and C20 ask for. -/
theorem fromShape_of_fromOk {g : Graph} {req : List String} {base : String} {joins : List Pair}
    (h : FromOk g req base joins) (on : Pair → ρ → ρ → Bool) : FromShape base (stepsOf g on joins) := by
  refine ⟨by rw [stepsOf_tgt]; exact h.once, by rw [stepsOf_tgt]; exact h.baseOnce, ?_⟩
  intro pre j post e
  have e2 := congrArg (List.map (fun j : JoinStep ρ => (j.src, j.tgt))) e
  rw [stepsOf_pair, List.map_append, List.map_cons] at e2
  rcases h.left _ _ _ e2 with h1 | h1
  · exact .inl h1
  · rw [List.map_map] at h1
    exact .inr h1

/-! ### C19 -/

/-- C19 (a): with joins that are all many to one or one to one, whatever their kind, no base row is
repeated; with left and full joins none is lost either. -/
theorem C19_base_part (db : String → List ρ) (base : String) (joins : List (JoinStep ρ))
    (hs : FromShape base joins) (hr : ∀ j ∈ joins, Respects db j)
    (hrel : ∀ j ∈ joins, j.rel = .manyToOne ∨ j.rel = .oneToOne) :
    (partOf base (joinedRows db base joins)).Sublist (db base) ∧
    ((∀ j ∈ joins, j.kind ≠ .inner) → partOf base (joinedRows db base joins) = db base) := by
  induction joins using List.reverseRecOn with
  | nil => rw [part_base]; exact ⟨List.Sublist.refl _, fun _ => rfl⟩
  | append_singleton pre j ih =>
    obtain ⟨h1, h2⟩ := ih hs.prefix (fun k hk => hr k (by simp [hk])) (fun k hk => hrel k (by simp [hk]))
    have hne : j.tgt ≠ base := fun c => hs.fresh (by simp [c])
    obtain ⟨h3, h4⟩ := part_step_ne hne (db j.tgt) (joinedRows db base pre)
      (matching_le_one (rowsOk_joined db base pre) (hr j (by simp)) (hrel j (by simp)))
    rw [joinedRows_snoc]
    refine ⟨h3.trans h1, fun hk => ?_⟩
    rw [h4 (hk j (by simp)), h2 (fun k hk' => hk k (by simp [hk']))]

/-- C19 (b): with left joins the result has exactly one row per base row, in the same order. -/
theorem C19_one_row_per_base_row (db : String → List ρ) (base : String) (joins : List (JoinStep ρ))
    (hs : FromShape base joins) (hr : ∀ j ∈ joins, Respects db j)
    (hrel : ∀ j ∈ joins, j.rel = .manyToOne ∨ j.rel = .oneToOne)
    (hleft : ∀ j ∈ joins, j.kind = .left) :
    (joinedRows db base joins).map (fun row => dictGet row base) = (db base).map some := by
  have hall : ∀ row ∈ joinedRows db base joins, ∃ r, dictGet row base = some r := by
    clear hr hrel
    induction joins using List.reverseRecOn with
    | nil =>
      intro row hrow
      simp only [joinedRows, List.foldl_nil, List.mem_map] at hrow
      obtain ⟨r, -, rfl⟩ := hrow
      exact ⟨r, dictGet_cons_eq _ _ _⟩
    | append_singleton pre j ih =>
      intro row hrow
      have ih := ih hs.prefix (fun k hk => hleft k (by simp [hk]))
      have hne : j.tgt ≠ base := fun c => hs.fresh (by simp [c])
      rw [joinedRows_snoc] at hrow
      unfold stepJoin at hrow
      rw [hleft j (by simp)] at hrow
      obtain ⟨r0, hr0, hx⟩ := List.mem_flatMap.mp hrow
      rcases mem_leftRows hx with rfl | ⟨t, -, rfl⟩
      · exact ih _ hr0
      · rw [dictGet_cons_ne hne]; exact ih _ hr0
  have hpart := (C19_base_part db base joins hs hr hrel).2 (fun j hj => by rw [hleft j hj]; simp)
  rw [← hpart]
  unfold partOf
  generalize joinedRows db base joins = rows at hall
  clear hpart
  induction rows with
  | nil => rfl
  | cons row rows ih =>
    obtain ⟨r, hg⟩ := hall row (by simp)
    simp only [List.map_cons, List.filterMap_cons, hg]
    rw [ih (fun x hx => hall x (by simp [hx]))]

/-- C19 (c): so an aggregate over the base view is the same with and without the joins. -/
theorem C19_aggregates {α : Type} (agg : List ρ → α) (db : String → List ρ) (base : String)
    (joins : List (JoinStep ρ)) (hs : FromShape base joins) (hr : ∀ j ∈ joins, Respects db j)
    (hrel : ∀ j ∈ joins, j.rel = .manyToOne ∨ j.rel = .oneToOne)
    (hleft : ∀ j ∈ joins, j.kind = .left) :
    agg ((joinedRows db base joins).filterMap (fun row => dictGet row base)) = agg (db base) :=
  congrArg agg ((C19_base_part db base joins hs hr hrel).2 (fun j hj => by rw [hleft j hj]; simp))

/-- C19 (d): for the joins the designer returns. If the relationships of the join graph that they
use are many to one or one to one and hold in the data, and no other join word was declared, the
query has one row per row of the base view. -/
theorem C19_designed (nx : Nx) (hnx : NxSpec nx) (views : List GView) (g : Graph)
    (hg : buildGraph views = .ok g) (hself : ∀ v ∈ views, ∀ r s t, ¬ DeclaresJoin v v.name r s t)
    (req bridges : List String) (hreq : ∀ v ∈ req, v ∈ views.map (·.name)) (hn : req.Nodup)
    (joins : List Pair) (base : String) (h : designJoins nx g bridges req = .ok joins)
    (hb : baseView joins req = .ok base) (db : String → List ρ) (on : Pair → ρ → ρ → Bool)
    (hdata : ∀ j ∈ stepsOf g on joins, Respects db j)
    (hjoins : ∀ p ∈ joins, ∀ e, edgeAt g p.1 p.2 = some e →
      (e.rel = .manyToOne ∨ e.rel = .oneToOne) ∧ e.jtype = "left_outer") :
    (joinedRows db base (stepsOf g on joins)).map (fun row => dictGet row base) =
      (db base).map some := by
  have hok := C17_project nx hnx views g hg hself req bridges hreq hn joins base h hb
  have hedge : ∀ j ∈ stepsOf g on joins, (j.rel = .manyToOne ∨ j.rel = .oneToOne) ∧ j.kind = .left := by
    intro j hj
    unfold stepsOf at hj
    obtain ⟨p, hp, rfl⟩ := List.mem_map.mp hj
    have := hok.edges p hp
    cases he : edgeAt g p.1 p.2 with
    | none =>
      exfalso
      unfold HasEdge at this
      rw [← dictGet_isSome] at this
      unfold edgeAt at he
      rw [he] at this
      cases this
    | some e =>
      obtain ⟨h1, h2⟩ := hjoins p hp e he
      refine ⟨h1, ?_⟩
      simp only [h2]
      rfl
  exact C19_one_row_per_base_row db base _ (fromShape_of_fromOk hok on) hdata
    (fun j hj => (hedge j hj).1) (fun j hj => (hedge j hj).2)

/-! ### C20 -/

theorem derivePkGo_spec (prev : Option Rel) (key : String) (joins : List (Rel × Pair)) (f : String)
    (h : derivePkGo prev key joins = some f) :
    (f = key ∨ f ∈ joins.map (·.2.2)) ∧ ∀ j ∈ joins, j.1 ≠ .manyToMany := by
  induction joins generalizing prev key with
  | nil => simp only [derivePkGo, Option.some.injEq] at h; simp [h]
  | cons j js ih =>
    obtain ⟨r, p⟩ := j
    unfold derivePkGo at h
    split at h
    · cases h
    · rename_i h1
      split at h
      · cases h
      · split at h
        · obtain ⟨h2, h3⟩ := ih _ _ h
          refine ⟨.inr ?_, ?_⟩
          · rcases h2 with h2 | h2
            · simp [h2]
            · simp only [List.map_cons, List.mem_cons]; exact .inr h2
          · intro k hk
            rcases List.mem_cons.mp hk with rfl | hk
            · exact h1
            · exact h3 k hk
        · obtain ⟨h2, h3⟩ := ih _ _ h
          refine ⟨?_, ?_⟩
          · rcases h2 with h2 | h2
            · exact .inl h2
            · right; simp only [List.map_cons, List.mem_cons]; exact .inr h2
          · intro k hk
            rcases List.mem_cons.mp hk with rfl | hk
            · exact h1
            · exact h3 k hk

theorem reportedPk_spec {base : String} {joins : List (JoinStep ρ)} {f : String}
    (h : reportedPk base joins = some f) :
    f ∈ base :: joins.map (·.tgt) ∧ ∀ j ∈ joins, j.rel ≠ .manyToMany := by
  unfold reportedPk functionalPk at h
  split at h
  · rename_i h1
    simp only [List.length_map] at h1
    rw [List.length_eq_zero_iff.mp h1]
    cases h
    simp
  · split at h
    · cases h
    · rename_i h1 h2
      have hno : ∀ j ∈ joins, j.rel ≠ .manyToMany := by
        intro j hj hc
        apply h2
        rw [List.any_eq_true]
        exact ⟨_, List.mem_map.mpr ⟨j, hj, rfl⟩, by simp [hc]⟩
      refine ⟨?_, hno⟩
      split at h
      · cases h; simp
      · rcases (derivePkGo_spec _ _ _ _ h).1 with h3 | h3
        · simp [h3]
        · rw [List.map_map] at h3
          exact List.mem_cons_of_mem _ h3

/-- C20, partial: the reported key is unique when every one-to-many join leads from the base to the
view of that key and no many-to-one join does. Missing: the other sequences, for which it is false
(C20_otherwise_repeated). -/
theorem C20_unique_partial {κ : Type} (db : String → List ρ) (pk : String → ρ → κ) (base : String)
    (joins : List (JoinStep ρ)) (hs : FromShape base joins)
    (hpk : ∀ v, ((db v).map (pk v)).Nodup) (hr : ∀ j ∈ joins, Respects db j) (f : String)
    (hf : reportedPk base joins = some f)
    (hto : ∀ j ∈ joins, j.rel = .oneToMany → OnPath joins f j)
    (hno : ∀ j, OnPath joins f j → j.rel ≠ .manyToOne) :
    ((partOf f (joinedRows db base joins)).map (pk f)).Nodup := by
  obtain ⟨h1, h2⟩ := reportedPk_spec hf
  have := nodup_of_unrepeated db base (fun v => List.Nodup.of_map _ (hpk v)) joins hs hr f h1 ⟨h2, hto, hno⟩
  refine List.Nodup.map_on ?_ this
  intro a ha b hb e
  exact List.inj_on_of_nodup_map (hpk f) (part_mem (rowsOk_joined db base joins) ha)
    (part_mem (rowsOk_joined db base joins) hb) e

/-- C20: the partial theorem is the best possible. For every other sequence of joins for which a key
is reported there are conditions and tables that respect every declared relationship and in whose
joined result the key repeats. -/
theorem C20_otherwise_repeated (base : String) (joins : List (JoinStep Bool))
    (hs : FromShape base joins) (f : String) (hf : reportedPk base joins = some f)
    (hbad : ¬ ((∀ j ∈ joins, j.rel = .oneToMany → OnPath joins f j) ∧
      ∀ j, OnPath joins f j → j.rel ≠ .manyToOne)) :
    ∃ (on : JoinStep Bool → Bool → Bool → Bool) (db : String → List Bool),
      (∀ v, (db v).Nodup) ∧
      (∀ j ∈ joins.map (fun j => { j with on := on j }), Respects db j) ∧
      ¬ (partOf f (joinedRows db base (joins.map (fun j => { j with on := on j })))).Nodup := by
  classical
  obtain ⟨hfm, -⟩ := reportedPk_spec hf
  have key : ∀ e ∈ joins, ∀ two : Bool,
      (if two then e.rel = .oneToMany else e.rel = .manyToOne) →
      (if two then ¬ OnPath joins f e else OnPath joins f e) →
      ∃ (on : JoinStep Bool → Bool → Bool → Bool) (db : String → List Bool),
        (∀ v, (db v).Nodup) ∧
        (∀ j ∈ joins.map (fun j => { j with on := on j }), Respects db j) ∧
        ¬ (partOf f (joinedRows db base (joins.map (fun j => { j with on := on j })))).Nodup := by
    intro e he two hrel hpath
    obtain ⟨pre, post, hsplit⟩ := List.append_of_mem he
    refine ⟨cOn e, cTable joins e two, ?_, respects_counter hs hsplit two hrel, ?_⟩
    · intro v
      unfold cTable
      split <;> decide
    · have := counter_rows hs he two joins [] (by simp)
      unfold cJoins at this
      rw [this, if_pos (.inr he)]
      have hval : ∀ b, cVal joins e two f b = false := by
        intro b
        unfold cVal
        cases two with
        | true => simp only [if_true] at hpath; simp [hpath]
        | false => simp only [Bool.false_eq_true, if_false] at hpath; simp [hpath]
      simp only [partOf, List.map_cons, List.map_nil, List.filterMap_cons, List.filterMap_nil,
        cRow_get joins e two base joins _ f hfm, hval]
      decide
  by_cases h1 : ∀ j ∈ joins, j.rel = .oneToMany → OnPath joins f j
  · have h2 : ∃ j, OnPath joins f j ∧ j.rel = .manyToOne := by
      by_contra hc
      exact hbad ⟨h1, fun j hj hrel => hc ⟨j, hj, hrel⟩⟩
    obtain ⟨e, h3, h4⟩ := h2
    exact key e h3.mem false (by simpa using h4) (by simpa using h3)
  · have h2 : ∃ j ∈ joins, j.rel = .oneToMany ∧ ¬ OnPath joins f j := by
      by_contra hc
      apply h1
      intro j hj hrel
      by_contra hp
      exact hc ⟨j, hj, hrel, hp⟩
    obtain ⟨e, he, h3, h4⟩ := h2
    exact key e he true (by simpa using h3) (by simpa using h4)

end

/-! ### Concrete cases -/

/-- `orders` joined to `customers` (many to one), then `regions` from `customers`. -/
def shopSteps : List (JoinStep (Nat × Nat)) :=
  [⟨"orders", "customers", .manyToOne, .left, fun o c => o.2 == c.1⟩,
   ⟨"customers", "regions", .manyToOne, .left, fun c r => c.2 == r.1⟩]

/-- Rows are (key, foreign key). -/
def shopDb (v : String) : List (Nat × Nat) :=
  if v = "orders" then [(1, 10), (2, 10), (3, 11), (4, 99)]
  else if v = "customers" then [(10, 7), (11, 8), (12, 7)]
  else if v = "regions" then [(7, 0), (9, 0)]
  else []

instance {ρ : Type} (db : String → List ρ) (j : JoinStep ρ) : Decidable (Respects db j) := by
  unfold Respects; infer_instance

theorem shopSteps_shape : FromShape "orders" shopSteps := by
  refine ⟨by decide, by decide, ?_⟩
  intro pre j post h
  unfold shopSteps at h
  rcases pre with _ | ⟨a, _ | ⟨b, _ | ⟨c, t⟩⟩⟩
  · injection h with h1 h2; subst h1; exact .inl rfl
  · injection h with h1 h2; injection h2 with h2 h3; subst h1 h2; exact .inr (by simp)
  · simp at h
  · simp at h

example : (joinedRows shopDb "orders" shopSteps).map (fun row => dictGet row "orders") =
    [some (1, 10), some (2, 10), some (3, 11), some (4, 99)] :=
  C19_one_row_per_base_row shopDb "orders" shopSteps shopSteps_shape (by decide)
    (fun j hj => by revert j; decide) (fun j hj => by revert j; decide)

/-- The other side: the same data joined one to many repeats a customer, and the key reported is
that of `orders`, which is not repeated. -/
def fanSteps : List (JoinStep (Nat × Nat)) :=
  [⟨"customers", "orders", .oneToMany, .left, fun c o => c.1 == o.2⟩]

example : ((partOf "customers" (joinedRows shopDb "customers" fanSteps)).map (·.1)) = [10, 10, 11, 12] ∧
    reportedPk "customers" fanSteps = some "orders" ∧
    ((partOf "orders" (joinedRows shopDb "customers" fanSteps)).map (·.1)).Nodup := by decide

example : ((partOf "orders" (joinedRows shopDb "customers" fanSteps)).map (·.1)).Nodup := by
  refine C20_unique_partial shopDb (fun _ r => r.1) "customers" fanSteps ?_ ?_ (by decide) "orders"
    (by decide) ?_ ?_
  · refine ⟨by decide, by decide, ?_⟩
    intro pre j post h
    unfold fanSteps at h
    rcases pre with _ | ⟨a, t⟩
    · injection h with h1 h2; subst h1; exact .inl rfl
    · simp at h
  · intro v
    unfold shopDb
    split
    · decide
    · split
      · decide
      · split <;> decide
  · intro j hj _
    exact .last hj (by revert j; decide)
  · intro j hj
    have := hj.mem
    revert this
    clear hj
    revert j
    decide

/-- C20, against the full statement: a project with two one-to-many joins from one view. The designer
joins both, reports the key of the second, and that key repeats. -/
theorem C20_star_repeats :
    ∃ (views : List GView) (g : Graph) (joins : List Pair) (on : Pair → Nat → Nat → Bool)
      (db : String → List Nat),
      buildGraph views = .ok g ∧ designJoins nxImpl g [] ["b", "c", "d"] = .ok joins ∧
      baseView joins ["b", "c", "d"] = .ok "b" ∧ (∀ v, (db v).Nodup) ∧
      (∀ j ∈ stepsOf g on joins, Respects db j) ∧ reportedPk "b" (stepsOf g on joins) = some "d" ∧
      ¬ (partOf "d" (joinedRows db "b" (stepsOf g on joins))).Nodup := by
  refine ⟨[⟨"b", [⟨"x", .join "c" .oneToMany "s" none, [], [], none⟩,
      ⟨"y", .join "d" .oneToMany "t" none, [], [], none⟩]⟩, ⟨"c", []⟩, ⟨"d", []⟩],
    ⟨["b", "c", "d"], [(("b", "c"), ⟨.oneToMany, "left_outer", "s", edgeWeight .oneToMany⟩),
      (("b", "d"), ⟨.oneToMany, "left_outer", "t", edgeWeight .oneToMany⟩),
      (("c", "b"), ⟨.manyToOne, "left_outer", "s", edgeWeight .manyToOne⟩),
      (("d", "b"), ⟨.manyToOne, "left_outer", "t", edgeWeight .manyToOne⟩)]⟩,
    [("b", "c"), ("b", "d")], fun _ _ _ => true,
    fun v => if v = "c" then [0, 1] else [0], ?_, ?_, ?_, ?_, ?_, ?_, ?_⟩
  · decide
  · decide
  · decide
  · intro v
    simp only
    split <;> decide
  · decide
  · decide
  · decide

/-- C20, against the full statement: many to one, one to one, then one to many. Only two neighbouring
joins are compared, so the key of the last view is reported, and it repeats. -/
theorem C20_chain_repeats :
    ∃ (joins : List (JoinStep Nat)) (db : String → List Nat),
      joins.map (·.rel) = [.manyToOne, .oneToOne, .oneToMany] ∧ (∀ v, (db v).Nodup) ∧
      (∀ j ∈ joins, Respects db j) ∧ reportedPk "a" joins = some "d" ∧
      ¬ (partOf "d" (joinedRows db "a" joins)).Nodup := by
  refine ⟨[⟨"a", "b", .manyToOne, .left, fun _ _ => true⟩, ⟨"b", "c", .oneToOne, .left, fun _ _ => true⟩,
      ⟨"c", "d", .oneToMany, .left, fun _ _ => true⟩],
    fun v => if v = "a" then [0, 1] else [0], by decide, ?_, by decide, by decide, by decide⟩
  intro v
  simp only
  split <;> decide

end ML
