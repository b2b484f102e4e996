import Verif.Basic
/-
Python dictionaries as association lists that keep insertion order: assigning to a present key
replaces the value in place, assigning to a new key appends.
-/
set_option autoImplicit false
namespace ML

section
variable {K V : Type} [DecidableEq K]

/-- `d.get(k)`. -/
def dictGet (d : List (K × V)) (k : K) : Option V :=
  match d with
  | [] => none
  | (k', v) :: rest => if k' = k then some v else dictGet rest k

/-- `d[k] = v`. -/
def dictSet (d : List (K × V)) (k : K) (v : V) : List (K × V) :=
  match d with
  | [] => [(k, v)]
  | (k', v') :: rest => if k' = k then (k', v) :: rest else (k', v') :: dictSet rest k v

theorem dictGet_set (d : List (K × V)) (k k' : K) (v : V) :
    dictGet (dictSet d k v) k' = if k = k' then some v else dictGet d k' := by
  induction d with
  | nil => simp [dictSet, dictGet]
  | cons p d ih =>
    obtain ⟨a, b⟩ := p
    simp only [dictSet]
    split
    · rename_i h
      subst h
      simp only [dictGet]
      split <;> rfl
    · rename_i h
      simp only [dictGet, ih]
      split
      · rename_i h2
        subst h2
        rw [if_neg (fun c => h c.symm)]
      · rfl

theorem dictGet_mem {d : List (K × V)} {k : K} {v : V} (h : dictGet d k = some v) :
    (k, v) ∈ d := by
  induction d with
  | nil => cases h
  | cons p d ih =>
    obtain ⟨a, b⟩ := p
    simp only [dictGet] at h
    split at h
    · rename_i e; cases h; simp [e]
    · simp [ih h]

theorem dictGet_isSome {d : List (K × V)} {k : K} :
    (dictGet d k).isSome = true ↔ k ∈ d.map (·.1) := by
  induction d with
  | nil => simp [dictGet]
  | cons p d ih =>
    obtain ⟨a, b⟩ := p
    simp only [dictGet, List.map_cons, List.mem_cons]
    split
    · rename_i e; simp [e]
    · rename_i e
      rw [ih]
      constructor
      · exact .inr
      · rintro (h | h)
        · exact absurd h.symm e
        · exact h

theorem dictSet_keys (d : List (K × V)) (k k' : K) (v : V) :
    k' ∈ (dictSet d k v).map (·.1) ↔ k' = k ∨ k' ∈ d.map (·.1) := by
  induction d with
  | nil => simp [dictSet]
  | cons p d ih =>
    obtain ⟨a, b⟩ := p
    simp only [dictSet]
    split
    · rename_i e; simp [e]
    · simp only [List.map_cons, List.mem_cons, ih]
      constructor
      · rintro (h | h | h) <;> simp [h]
      · rintro (h | h | h) <;> simp [h]

theorem dictSet_nodup {d : List (K × V)} (h : (d.map (·.1)).Nodup) (k : K) (v : V) :
    ((dictSet d k v).map (·.1)).Nodup := by
  induction d with
  | nil => simp [dictSet]
  | cons p d ih =>
    obtain ⟨a, b⟩ := p
    simp only [List.map_cons, List.nodup_cons] at h
    simp only [dictSet]
    split
    · simpa using h
    · rename_i e
      simp only [List.map_cons, List.nodup_cons]
      refine ⟨?_, ih h.2⟩
      rw [dictSet_keys]
      rintro (c | c)
      · exact e c
      · exact h.1 c

theorem dictGet_of_mem {d : List (K × V)} (h : (d.map (·.1)).Nodup) {k : K} {v : V}
    (hm : (k, v) ∈ d) : dictGet d k = some v := by
  induction d with
  | nil => cases hm
  | cons p d ih =>
    obtain ⟨a, b⟩ := p
    simp only [List.map_cons, List.nodup_cons] at h
    simp only [dictGet]
    simp only [List.mem_cons, Prod.mk.injEq] at hm
    rcases hm with ⟨rfl, rfl⟩ | hm
    · rw [if_pos rfl]
    · rw [if_neg, ih h.2 hm]
      rintro rfl
      exact h.1 (List.mem_map.mpr ⟨_, hm, rfl⟩)

/-- Assigning a list of entries in turn: the last assignment to a key wins. -/
theorem dictGet_foldl_set (l : List (K × V)) : ∀ (d : List (K × V)) (k : K),
    dictGet (l.foldl (fun d p => dictSet d p.1 p.2) d) k =
      match ((l.filter (fun p => decide (p.1 = k))).getLast?).map (·.2) with
      | some v => some v
      | none => dictGet d k := by
  induction l with
  | nil => intro d k; rfl
  | cons p l ih =>
    intro d k
    rw [List.foldl_cons, ih, List.filter_cons]
    by_cases e : p.1 = k
    · simp only [e, decide_true, if_true, List.getLast?_cons]
      cases hl : (l.filter (fun p => decide (p.1 = k))).getLast? with
      | none => simp [dictGet_set]
      | some q => simp
    · simp only [e, decide_false, Bool.false_eq_true, if_false, dictGet_set]

end

end ML
