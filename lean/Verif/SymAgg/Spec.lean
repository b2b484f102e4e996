import Verif.SymAgg.Model
/-
Specification vocabulary for C21 and C22.
-/
set_option autoImplicit false
namespace ML.Spec

section
variable {ρ : Type}

/-- `reps` picks one row for each non-null key that occurs in `rows`: the rows of the measure's own
view, each once. -/
structure OnePerKey (key : ρ → Val) (rows reps : List ρ) : Prop where
  sub : ∀ r ∈ reps, r ∈ rows
  once : (reps.map key).Nodup
  nonnull : ∀ r ∈ reps, key r ≠ none
  all : ∀ r ∈ rows, key r ≠ none → ∃ r' ∈ reps, key r' = key r

/-- Rows with the same key carry the same value (they are copies of one row of the own view), and a
row without a key, added by an outer join or excluded by the measure's filter, carries no value. -/
structure OwnValue (key val : ρ → Val) (rows : List ρ) : Prop where
  copies : ∀ a ∈ rows, ∀ b ∈ rows, key a = key b → val a = val b
  null : ∀ a ∈ rows, key a = none → val a = none

/-- The hash separates the rows: neither the hashes of two keys coincide nor the hashes once the
scaled values are added. -/
def NoCollision (hash : ℚ → ℤ) (key val : ρ → Val) (reps : List ρ) : Prop :=
  ∀ a ∈ reps, ∀ b ∈ reps, ∀ k l, key a = some k → key b = some l → k ≠ l →
    hash k ≠ hash l ∧
    ((val a).getD 0 * 1000000).floor + hash k ≠ ((val b).getD 0 * 1000000).floor + hash l

/-- The non-null values of these rows. -/
def values (val : ρ → Val) (rows : List ρ) : List ℚ := rows.filterMap val

/-- All values have at most six decimals. -/
def SixDecimals (val : ρ → Val) (rows : List ρ) : Prop :=
  ∀ r ∈ rows, ∀ x, val r = some x → ∃ n : ℤ, x * 1000000 = n

/-- The value a measure of this type should have on these values of its own view. -/
def trueValue (t : MeasureType) (vs : List ℚ) : Val :=
  match t with
  | .sum | .sumDistinct => if vs = [] then none else some vs.sum
  | .count => some vs.length
  | .countDistinct => some vs.dedup.length
  | .average | .averageDistinct => if vs = [] then none else some (vs.sum / vs.length)
  | .median => sqlMedian vs
  | .max => sqlMax vs
  | .min => sqlMin vs

/-- Equal, not distinguishing NULL from 0. -/
def SameValue (a b : Val) : Prop := a.getD 0 = b.getD 0

end
end ML.Spec
