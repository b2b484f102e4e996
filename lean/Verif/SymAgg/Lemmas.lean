import Verif.SymAgg.Spec
import Mathlib.Tactic.Linarith
import Mathlib.Tactic.FieldSimp
import Mathlib.Data.List.Perm.Subperm
import Mathlib.Data.List.Nodup
import Mathlib.Algebra.Order.Floor.Ring
import Mathlib.Algebra.BigOperators.Group.List.Lemmas
import Mathlib.Algebra.BigOperators.Ring.List
import Mathlib.Algebra.Order.Ring.Rat
/-
Helper lemmas for C21 and C22.
-/
set_option autoImplicit false
namespace ML
open Spec

section
variable {ρ : Type}

/-- A function of the key: same value on copies, nothing without a key. -/
theorem mem_values_iff {key f : ρ → Val} {rows reps : List ρ} (h : OnePerKey key rows reps)
    (hf : OwnValue key f rows) (q : ℚ) : q ∈ rows.filterMap f ↔ q ∈ reps.filterMap f := by
  simp only [List.mem_filterMap]
  constructor
  · rintro ⟨r, hr, hq⟩
    have hk : key r ≠ none := fun c => by rw [hf.null r hr c] at hq; cases hq
    obtain ⟨r', hr', e⟩ := h.all r hr hk
    exact ⟨r', hr', by rw [hf.copies r' (h.sub r' hr') r hr e, hq]⟩
  · rintro ⟨r, hr, hq⟩
    exact ⟨r, h.sub r hr, hq⟩

theorem dedup_perm {key f : ρ → Val} {rows reps : List ρ} (h : OnePerKey key rows reps)
    (hf : OwnValue key f rows) (hn : (reps.filterMap f).Nodup) :
    (rows.filterMap f).dedup.Perm (reps.filterMap f) := by
  rw [List.perm_ext_iff_of_nodup (List.nodup_dedup _) hn]
  intro q
  rw [List.mem_dedup, mem_values_iff h hf]

theorem sqlSum_perm {a b : List ℚ} (h : a.Perm b) : sqlSum a = sqlSum b := by
  unfold sqlSum
  rw [h.sum_eq]
  by_cases e : a = []
  · subst e; rw [List.nil_perm.mp h]
  · have : b ≠ [] := fun c => by subst c; exact e (List.perm_nil.mp h)
    rw [if_neg e, if_neg this]

/-- With the keys known, the value of each representative is a number. -/
theorem filterMap_hashed {key : ρ → Val} (hash : ℚ → ℤ) {reps : List ρ}
    (hn : ∀ r ∈ reps, key r ≠ none) :
    reps.filterMap (fun r => (key r).map (fun k => (hash k : ℚ))) =
      reps.map (fun r => (hash ((key r).getD 0) : ℚ)) := by
  induction reps with
  | nil => rfl
  | cons r rs ih =>
    have h1 := hn r (by simp)
    rw [List.filterMap_cons, List.map_cons, ih (fun x hx => hn x (by simp [hx]))]
    cases hk : key r with
    | none => exact absurd hk h1
    | some k => rfl

theorem filterMap_sum {key val : ρ → Val} (hash : ℚ → ℤ) {reps : List ρ}
    (hn : ∀ r ∈ reps, key r ≠ none) :
    reps.filterMap (fun r => (key r).map (fun k => scaled (val r) + (hash k : ℚ))) =
      reps.map (fun r => scaled (val r) + (hash ((key r).getD 0) : ℚ)) := by
  induction reps with
  | nil => rfl
  | cons r rs ih =>
    have h1 := hn r (by simp)
    rw [List.filterMap_cons, List.map_cons, ih (fun x hx => hn x (by simp [hx]))]
    cases hk : key r with
    | none => exact absurd hk h1
    | some k => rfl

theorem nodup_map_of {α : Type} {β : Type} {f : α → β} {l : List α} (hl : l.Nodup)
    (h : ∀ a ∈ l, ∀ b ∈ l, f a = f b → a = b) : (l.map f).Nodup :=
  List.Nodup.map_on (fun a ha b hb e => h a ha b hb e) hl

theorem key_inj {key : ρ → Val} {reps : List ρ} (h : (reps.map key).Nodup) {a b : ρ}
    (ha : a ∈ reps) (hb : b ∈ reps) (e : key a = key b) : a = b :=
  List.inj_on_of_nodup_map h ha hb e

theorem sum_map_add {α : Type} (f g : α → ℚ) (l : List α) :
    (l.map (fun a => f a + g a)).sum = (l.map f).sum + (l.map g).sum := by
  induction l with
  | nil => simp
  | cons a l ih => simp only [List.map_cons, List.sum_cons, ih]; ring

theorem eval_hashed (E : Engine ρ) (pk : String) :
    (fun row => (Scalar.hashed pk).eval E row) =
      fun row => (E.value row pk).map (fun k => (E.hash k : ℚ)) := rfl

theorem eval_plus (E : Engine ρ) (sql pk : String) :
    (fun row => (Scalar.plus (.adjusted sql) (.hashed pk)).eval E row) =
      fun row => (E.value row pk).map (fun k => scaled (E.value row sql) + (E.hash k : ℚ)) := by
  funext row
  simp only [Scalar.eval]
  cases E.value row pk <;> rfl

/-- The value of the symmetric sum. -/
theorem eval_symSum (E : Engine ρ) (sql pk : String) {rows reps : List ρ}
    (h : OnePerKey (fun r => E.value r pk) rows reps)
    (hv : ∀ a ∈ rows, ∀ b ∈ rows, E.value a pk = E.value b pk → E.value a pk ≠ none →
      E.value a sql = E.value b sql)
    (hc : NoCollision E.hash (fun r => E.value r pk) (fun r => E.value r sql) reps) :
    (symSum sql pk).eval E rows =
      some ((reps.map (fun r => scaled (E.value r sql))).sum / 1000000) := by
  have hnd : reps.Nodup := List.Nodup.of_map _ h.once
  have hkey : ∀ a ∈ reps, ∀ b ∈ reps, a ≠ b → ∃ k l, E.value a pk = some k ∧ E.value b pk = some l ∧ k ≠ l := by
    intro a ha b hb hab
    cases hka : E.value a pk with
    | none => exact absurd hka (h.nonnull a ha)
    | some k =>
      cases hkb : E.value b pk with
      | none => exact absurd hkb (h.nonnull b hb)
      | some l =>
        refine ⟨k, l, rfl, rfl, fun e => hab (key_inj h.once ha hb ?_)⟩
        simp only [hka, hkb, e]
  have own1 : OwnValue (fun r => E.value r pk)
      (fun row => (E.value row pk).map (fun k => (E.hash k : ℚ))) rows :=
    ⟨fun a _ b _ e => by simp only [e], fun a _ e => by simp only [e]; rfl⟩
  have own2 : OwnValue (fun r => E.value r pk)
      (fun row => (E.value row pk).map (fun k => scaled (E.value row sql) + (E.hash k : ℚ))) rows := by
    refine ⟨fun a ha b hb e => ?_, fun a _ e => by simp only [e]; rfl⟩
    cases hk : E.value a pk with
    | none => rw [hk] at e; simp only [← e]; rfl
    | some k =>
      rw [hv a ha b hb e (by rw [hk]; simp), ← e, hk]
  have n1 : (reps.filterMap (fun row => (E.value row pk).map (fun k => (E.hash k : ℚ)))).Nodup := by
    rw [filterMap_hashed E.hash h.nonnull]
    refine nodup_map_of hnd ?_
    intro a ha b hb e
    by_contra hab
    obtain ⟨k, l, hk, hl, hkl⟩ := hkey a ha b hb hab
    simp only [hk, hl, Option.getD_some, Int.cast_inj] at e
    exact (hc a ha b hb k l hk hl hkl).1 e
  have n2 : (reps.filterMap (fun row => (E.value row pk).map
      (fun k => scaled (E.value row sql) + (E.hash k : ℚ)))).Nodup := by
    rw [filterMap_sum E.hash h.nonnull]
    refine nodup_map_of hnd ?_
    intro a ha b hb e
    by_contra hab
    obtain ⟨k, l, hk, hl, hkl⟩ := hkey a ha b hb hab
    simp only [hk, hl, Option.getD_some, scaled] at e
    apply (hc a ha b hb k l hk hl hkl).2
    exact_mod_cast e
  have s1 := sqlSum_perm (dedup_perm h own1 n1)
  have s2 := sqlSum_perm (dedup_perm h own2 n2)
  unfold symSum
  simp only [Agg.eval]
  rw [eval_plus, eval_hashed, s1, s2, filterMap_hashed E.hash h.nonnull, filterMap_sum E.hash h.nonnull]
  cases hr : reps with
  | nil => simp [sqlSum]
  | cons r rs =>
    rw [← hr]
    have hne : ∀ f : ρ → ℚ, reps.map f ≠ [] := fun f => by rw [hr]; simp
    simp only [sqlSum, hne, if_false]
    rw [sum_map_add]
    congr 2
    ring

theorem own_keyIfValue {E : Engine ρ} {sql pk : String} {rows : List ρ}
    (hv : ∀ a ∈ rows, ∀ b ∈ rows, E.value a pk = E.value b pk → E.value a pk ≠ none →
      E.value a sql = E.value b sql) :
    OwnValue (fun r => E.value r pk) (fun row => (Scalar.keyIfValue sql pk).eval E row) rows := by
  refine ⟨fun a ha b hb e => ?_, fun a _ e => ?_⟩
  · simp only [Scalar.eval] at e ⊢
    cases hk : E.value a pk with
    | none =>
      rw [hk] at e
      rw [← e]
      cases E.value a sql <;> cases E.value b sql <;> rfl
    | some k =>
      rw [hv a ha b hb e (by rw [hk]; simp), ← e, hk]
  · simp only [Scalar.eval] at e ⊢
    rw [e]
    cases E.value a sql <;> rfl

/-- The value of the symmetric count. -/
theorem eval_countKeys (E : Engine ρ) (sql pk : String) {rows reps : List ρ}
    (h : OnePerKey (fun r => E.value r pk) rows reps)
    (hv : ∀ a ∈ rows, ∀ b ∈ rows, E.value a pk = E.value b pk → E.value a pk ≠ none →
      E.value a sql = E.value b sql) :
    (rows.filterMap (fun row => (Scalar.keyIfValue sql pk).eval E row)).dedup.length =
      (reps.filterMap (fun r => E.value r sql)).length := by
  have hn : (reps.filterMap (fun row => (Scalar.keyIfValue sql pk).eval E row)).Nodup := by
    have := h.once
    clear hv
    have hnn := h.nonnull
    clear h
    induction reps with
    | nil => exact List.nodup_nil
    | cons r rs ih =>
      simp only [List.map_cons, List.nodup_cons] at this
      have ih := ih this.2 (fun x hx => hnn x (by simp [hx]))
      rw [List.filterMap_cons]
      simp only [Scalar.eval] at ih ⊢
      cases hs : E.value r sql with
      | none => exact ih
      | some x =>
        simp only
        cases hk : E.value r pk with
        | none => exact ih
        | some k =>
          simp only
          rw [List.nodup_cons]
          refine ⟨?_, ih⟩
          intro hm
          obtain ⟨r', hr', e⟩ := List.mem_filterMap.mp hm
          apply this.1
          refine List.mem_map.mpr ⟨r', hr', ?_⟩
          cases hs' : E.value r' sql with
          | none => rw [hs'] at e; cases e
          | some y => rw [hs'] at e; simp only at e; rw [e, hk]
  rw [(dedup_perm h (own_keyIfValue hv) hn).length_eq]
  have hnn := h.nonnull
  clear hn hv h
  induction reps with
  | nil => rfl
  | cons r rs ih =>
    have ih := ih (fun x hx => hnn x (by simp [hx]))
    simp only [List.filterMap_cons, Scalar.eval] at ih ⊢
    cases hs : E.value r sql with
    | none => exact ih
    | some x =>
      simp only
      cases hk : E.value r pk with
      | none => exact absurd hk (hnn r (by simp))
      | some k => simp only [List.length_cons, ih]

/-! Values with at most six decimals. -/

theorem scaled_exact {x : Val} (h : ∀ q, x = some q → ∃ n : ℤ, q * 1000000 = n) :
    scaled x = x.getD 0 * 1000000 := by
  unfold scaled
  cases x with
  | none => simp only [Option.getD_none, zero_mul]; rfl
  | some q =>
    obtain ⟨n, hn⟩ := h q rfl
    simp only [Option.getD_some, hn]
    rw [Rat.floor_intCast]

end
end ML
