import Verif.Merged.Model
/-
What C33 and C34 say about merged results.
-/
set_option autoImplicit false
namespace ML.Spec

/-- `v` is the first value of the list that is not NULL, and NULL only if all of them are. -/
def IsFirstNonNull {V : Type} (l : List (Option V)) (v : Option V) : Prop :=
  (v = none ∧ ∀ x ∈ l, x = none) ∨
  ∃ before x after, l = before ++ some x :: after ∧ (∀ y ∈ before, y = none) ∧ v = some x

section
variable {V : Type} [DecidableEq V]

/-- The dimensions of a sub-query. -/
def dimsOf (d : MergeDef) (h : String) : List MDim := (dictGet d.dims h).getD []

/-- The combination of dimension values of a row of the sub-query `h`. -/
def keyOf (d : MergeDef) (h : String) (r : MRow V) : List (Option V) := (dimsOf d h).map (fun f => r f.column)

/-- The combination `k` is present in the sub-query `h`. -/
def PresentIn (d : MergeDef) (db : String → List (MRow V)) (k : List V) (h : String) : Prop :=
  ∃ t ∈ db h, keyOf d h t = k.map some

/-- The merged row is about the combination `k`: the row of some sub-query in it has these values. -/
def About (d : MergeDef) (k : List V) (row : JRow (MRow V)) : Prop :=
  ∃ p ∈ row, keyOf d p.1 p.2 = k.map some

/-- The merged row carries, of each sub-query, the row for the combination `k` and nothing else. -/
def Carries (d : MergeDef) (db : String → List (MRow V)) (k : List V) (row : JRow (MRow V)) : Prop :=
  ∀ h ∈ d.hashes, ∀ t, dictGet row h = some t ↔ t ∈ db h ∧ keyOf d h t = k.map some

/-- Sub-queries grouped by the same number of dimensions: every sub-query has its list of dimensions, no name
twice; in each result the dimension values are not NULL and no combination occurs twice. -/
structure Grouped (d : MergeDef) (db : String → List (MRow V)) (n : ℕ) : Prop where
  pos : 0 < n
  nodup : d.hashes.Nodup
  listed : ∀ h ∈ d.hashes, ∃ l, dictGet d.dims h = some l ∧ l.length = n
  notNull : ∀ h ∈ d.hashes, ∀ t ∈ db h, ∀ v ∈ keyOf d h t, v ≠ none
  unique : ∀ h ∈ d.hashes, ((db h).map (keyOf d h)).Nodup

end
end ML.Spec
