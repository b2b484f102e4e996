import Verif.Joined.Model
/-
Specification vocabulary for C19 and C20.
-/
set_option autoImplicit false
namespace ML.Spec

section
variable {ρ : Type}

/-- The non-null rows of view `v` in a joined result, with repetitions. -/
def partOf (v : String) (rows : List (JRow ρ)) : List ρ := rows.filterMap (fun row => dictGet row v)

/-- The data satisfy the relationship that the join declares. -/
def Respects (db : String → List ρ) (j : JoinStep ρ) : Prop :=
  ((j.rel = .manyToOne ∨ j.rel = .oneToOne) →
    ∀ s ∈ db j.src, ((db j.tgt).filter (fun t => j.on s t)).length ≤ 1) ∧
  ((j.rel = .oneToMany ∨ j.rel = .oneToOne) →
    ∀ t ∈ db j.tgt, ((db j.src).filter (fun s => j.on s t)).length ≤ 1)

/-- Each join starts at the base or at a view joined before it, and joins a new view. -/
structure FromShape (base : String) (joins : List (JoinStep ρ)) : Prop where
  once : (joins.map (·.tgt)).Nodup
  baseOnce : base ∉ joins.map (·.tgt)
  left : ∀ pre j post, joins = pre ++ j :: post → j.src = base ∨ j.src ∈ pre.map (·.tgt)

/-- `j` is one of the joins that lead from the base to view `v`. -/
inductive OnPath (joins : List (JoinStep ρ)) (v : String) : JoinStep ρ → Prop
  | last {j : JoinStep ρ} : j ∈ joins → j.tgt = v → OnPath joins v j
  | up {j k : JoinStep ρ} : OnPath joins v k → j ∈ joins → j.tgt = k.src → OnPath joins v j

/-- When the rows of view `v` are not repeated: no join is many to many, every one-to-many join leads
to `v`, and no many-to-one join does. -/
def Unrepeated (joins : List (JoinStep ρ)) (v : String) : Prop :=
  (∀ j ∈ joins, j.rel ≠ .manyToMany) ∧ (∀ j ∈ joins, j.rel = .oneToMany → OnPath joins v j) ∧
  ∀ j, OnPath joins v j → j.rel ≠ .manyToOne

end
end ML.Spec
