import Verif.Joined.Props
/-
C19: what each declared join type keeps.
-/
set_option autoImplicit false
namespace ML
open Spec
section
variable {ρ : Type}

/-- C19 (e): the rows of two joined views, by the declared join type. The matching pairs are always there; a row of the left view
that matches nothing is kept unless the type is `inner` or `cross`; one of the joined view only if it is `full_outer`; nothing
else is. An unknown or missing type counts as `left_outer`. -/
theorem C19_join_types (db : String → List ρ) (s t ty : String) (rel : Rel) (on : ρ → ρ → Bool) (row : JRow ρ) :
    row ∈ joinedRows db s [⟨s, t, rel, joinKind ty, on⟩] ↔
      (∃ x y, row = [(t, y), (s, x)] ∧ x ∈ db s ∧ y ∈ db t ∧ on x y = true) ∨
      (∃ x, row = [(s, x)] ∧ x ∈ db s ∧ (∀ y ∈ db t, on x y = false) ∧ ty ≠ "inner" ∧ ty ≠ "cross") ∨
      (∃ y, row = [(t, y)] ∧ y ∈ db t ∧ (∀ x ∈ db s, on x y = false) ∧ ty = "full_outer") := by
  have hget : ∀ x : ρ, dictGet [(s, x)] s = some x := by intro x; simp [dictGet]
  have hmatch : ∀ k x, matching ⟨s, t, rel, k, on⟩ (db t) [(s, x)] = (db t).filter (on x) := by
    intro k x; simp only [matching, hget]
  have hleft : ∀ k x, row ∈ leftRows ⟨s, t, rel, k, on⟩ (db t) [(s, x)] ↔
      (∃ y ∈ db t, on x y = true ∧ row = [(t, y), (s, x)]) ∨ (∀ y ∈ db t, on x y = false) ∧ row = [(s, x)] := by
    intro k x
    simp only [leftRows, hmatch]
    cases hf : (db t).filter (on x) with
    | nil =>
      rw [List.filter_eq_nil_iff] at hf
      simp only [List.mem_singleton]
      constructor
      · intro h; exact .inr ⟨fun y hy => by simpa using hf y hy, h⟩
      · rintro (⟨y, hy, ho, -⟩ | ⟨-, h⟩)
        · exact absurd ho (hf y hy)
        · exact h
    | cons z zs =>
      have hz : z ∈ (db t).filter (on x) := by rw [hf]; simp
      simp only [← hf, List.mem_map, List.mem_filter]
      constructor
      · rintro ⟨y, ⟨hy, ho⟩, rfl⟩
        exact .inl ⟨y, hy, ho, rfl⟩
      · rintro (⟨y, hy, ho, rfl⟩ | ⟨h, -⟩)
        · exact ⟨y, ⟨hy, ho⟩, rfl⟩
        · obtain ⟨h1, h2⟩ := List.mem_filter.1 hz
          rw [h z h1] at h2; cases h2
  have hinner : ∀ k x, row ∈ innerRows ⟨s, t, rel, k, on⟩ (db t) [(s, x)] ↔
      ∃ y ∈ db t, on x y = true ∧ row = [(t, y), (s, x)] := by
    intro k x
    simp only [innerRows, hmatch, List.mem_map, List.mem_filter]
    constructor
    · rintro ⟨y, ⟨hy, ho⟩, rfl⟩; exact ⟨y, hy, ho, rfl⟩
    · rintro ⟨y, hy, ho, rfl⟩; exact ⟨y, ⟨hy, ho⟩, rfl⟩
  have hun : ∀ k y, isMatched ⟨s, t, rel, k, on⟩ ((db s).map fun r => [(s, r)]) y = false ↔ ∀ x ∈ db s, on x y = false := by
    intro k y
    simp only [isMatched, List.any_map, List.any_eq_false, Function.comp, hget, Bool.not_eq_true]
  have hk : joinKind ty = .inner ∧ (ty = "inner" ∨ ty = "cross") ∨ joinKind ty = .full ∧ ty = "full_outer" ∨
      joinKind ty = .left ∧ ty ≠ "inner" ∧ ty ≠ "cross" ∧ ty ≠ "full_outer" := by
    unfold joinKind
    by_cases h1 : ty = "left_outer"
    · subst h1; right; right; decide
    · by_cases h2 : ty = "inner"
      · subst h2; left; decide
      · by_cases h3 : ty = "full_outer"
        · subst h3; right; left; decide
        · by_cases h4 : ty = "cross"
          · subst h4; left; decide
          · right; right
            simp [h1, h2, h3, h4]
  simp only [joinedRows, List.foldl_cons, List.foldl_nil, stepJoin]
  rcases hk with ⟨e, h⟩ | ⟨e, h⟩ | ⟨e, h1, h2, h3⟩
  · rw [e]
    simp only [List.mem_flatMap, List.mem_map]
    constructor
    · rintro ⟨_, ⟨x, hx, rfl⟩, hr⟩
      obtain ⟨y, hy, ho, hr⟩ := (hinner _ x).1 hr
      exact .inl ⟨x, y, hr, hx, hy, ho⟩
    · rintro (⟨x, y, hr, hx, hy, ho⟩ | ⟨x, -, -, -, h1, h2⟩ | ⟨y, -, -, -, h1⟩)
      · exact ⟨_, ⟨x, hx, rfl⟩, (hinner _ x).2 ⟨y, hy, ho, hr⟩⟩
      · rcases h with h | h
        · exact absurd h h1
        · exact absurd h h2
      · rw [h1] at h; exact absurd h (by decide)
  · rw [e]
    simp only [List.mem_append, List.mem_flatMap, List.mem_map, List.mem_filter, Bool.not_eq_true', hun]
    constructor
    · rintro (⟨_, ⟨x, hx, rfl⟩, hr⟩ | ⟨y, ⟨hy, ho⟩, rfl⟩)
      · rcases (hleft _ x).1 hr with ⟨y, hy, ho, hr⟩ | ⟨ho, hr⟩
        · exact .inl ⟨x, y, hr, hx, hy, ho⟩
        · exact .inr (.inl ⟨x, hr, hx, ho, by rw [h]; decide, by rw [h]; decide⟩)
      · exact .inr (.inr ⟨y, rfl, hy, ho, h⟩)
    · rintro (⟨x, y, hr, hx, hy, ho⟩ | ⟨x, hr, hx, ho, -, -⟩ | ⟨y, hr, hy, ho, -⟩)
      · exact .inl ⟨_, ⟨x, hx, rfl⟩, (hleft _ x).2 (.inl ⟨y, hy, ho, hr⟩)⟩
      · exact .inl ⟨_, ⟨x, hx, rfl⟩, (hleft _ x).2 (.inr ⟨ho, hr⟩)⟩
      · exact .inr ⟨y, ⟨hy, ho⟩, hr.symm⟩
  · rw [e]
    simp only [List.mem_flatMap, List.mem_map]
    constructor
    · rintro ⟨_, ⟨x, hx, rfl⟩, hr⟩
      rcases (hleft _ x).1 hr with ⟨y, hy, ho, hr⟩ | ⟨ho, hr⟩
      · exact .inl ⟨x, y, hr, hx, hy, ho⟩
      · exact .inr (.inl ⟨x, hr, hx, ho, h1, h2⟩)
    · rintro (⟨x, y, hr, hx, hy, ho⟩ | ⟨x, hr, hx, ho, -, -⟩ | ⟨y, -, -, -, c⟩)
      · exact ⟨_, ⟨x, hx, rfl⟩, (hleft _ x).2 (.inl ⟨y, hy, ho, hr⟩)⟩
      · exact ⟨_, ⟨x, hx, rfl⟩, (hleft _ x).2 (.inr ⟨ho, hr⟩)⟩
      · exact absurd c h3

end

/-! ### Concrete cases -/

-- orders 1 and 2, of customers 7 and 8; customers 7 and 9 exist
example : joinedRows (fun v => if v = "orders" then [(1, 7), (2, 8)] else [(7, 0), (9, 0)]) "orders"
    [⟨"orders", "customers", .manyToOne, joinKind "full_outer", fun o c => o.2 == c.1⟩] =
    [[("customers", (7, 0)), ("orders", (1, 7))], [("orders", (2, 8))], [("customers", (9, 0))]] := by decide

end ML
