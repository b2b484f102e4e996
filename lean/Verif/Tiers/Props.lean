import Verif.Tiers.Model
import Mathlib.Data.List.Sort
import Mathlib.Tactic.Linarith
/-
C31: tiers partition the number line.
-/
set_option autoImplicit false
namespace ML

namespace Spec
/-- The numbers a tier's label promises: below `b`, from `a` up to but not including `b`, or from `a` up. -/
def InTier : TierWhen → ℚ → Prop
  | .below b, x => x < b
  | .between a b, x => a ≤ x ∧ x < b
  | .atLeast a, x => a ≤ x

/-- The label of a tier. -/
def tierLabel (num : ℚ → String) : TierWhen → String
  | .below b => "Below " ++ num b
  | .between a b => "[" ++ num a ++ "," ++ num b ++ ")"
  | .atLeast a => "[" ++ num a ++ ",inf)"
end Spec
open Spec

theorem holds_iff (w : TierWhen) (x : ℚ) : w.holds (some x) = true ↔ InTier w x := by
  cases w <;> simp [TierWhen.holds, InTier]

/-- The tiers of one boundary after another. -/
theorem tierCase_cons (a : ℚ) (l : List ℚ) :
    ∃ last, (a :: l).getLast? = some last ∧
      tierCase (a :: l) = .ok (.below a :: tierBuckets (a :: l) ++ [.atLeast last]) := by
  cases h : (a :: l).getLast? with
  | none => simp at h
  | some last => exact ⟨last, rfl, by simp only [tierCase, List.head?_cons, h]⟩

/-- From the first boundary up, some bucket or the last tier holds the number, for any boundaries. -/
theorem buckets_total (a : ℚ) (l : List ℚ) (last x : ℚ) (hl : (a :: l).getLast? = some last) (hx : a ≤ x) :
    ∃ w ∈ tierBuckets (a :: l) ++ [.atLeast last], InTier w x := by
  induction l generalizing a with
  | nil =>
    have : a = last := by simpa using hl
    subst this
    exact ⟨.atLeast a, by simp, hx⟩
  | cons b rest ih =>
    by_cases h : x < b
    · exact ⟨.between a b, by simp [tierBuckets], hx, h⟩
    · obtain ⟨w, hw, hin⟩ := ih b (by simpa using hl) (not_lt.mp h)
      refine ⟨w, ?_, hin⟩
      simp only [tierBuckets, List.cons_append, List.mem_cons]
      exact .inr hw

/-- C31 (a): with at least one boundary, in any order, no number is 'Unknown', and the tier chosen
contains the number. -/
theorem C31_total (tiers : List ℚ) (hne : tiers ≠ []) :
    ∃ whens, tierCase tiers = .ok whens ∧ ∀ x : ℚ, ∃ w, tierOf whens (some x) = some w ∧ InTier w x := by
  obtain ⟨a, l, rfl⟩ := List.exists_cons_of_ne_nil hne
  obtain ⟨last, hl, hc⟩ := tierCase_cons a l
  refine ⟨_, hc, fun x => ?_⟩
  have : ∃ w ∈ (TierWhen.below a :: tierBuckets (a :: l) ++ [.atLeast last]), InTier w x := by
    by_cases h : x < a
    · exact ⟨.below a, by simp, h⟩
    · obtain ⟨w, hw, hin⟩ := buckets_total a l last x hl (not_lt.mp h)
      exact ⟨w, by simp only [List.cons_append, List.mem_cons]; exact .inr hw, hin⟩
  obtain ⟨w, hw, hin⟩ := this
  unfold tierOf
  cases hf : List.find? (fun w => w.holds (some x))
      (TierWhen.below a :: tierBuckets (a :: l) ++ [.atLeast last]) with
  | none => exact absurd ((holds_iff w x).mpr hin) (by simpa using List.find?_eq_none.mp hf w hw)
  | some w' => exact ⟨w', rfl, (holds_iff w' x).mp (by simpa using List.find?_some hf)⟩

/-- The buckets lie between the first and the last boundary, each above the one before. -/
theorem buckets_disjoint (a : ℚ) (l : List ℚ) (last : ℚ) (hs : (a :: l).Pairwise (· < ·))
    (hl : (a :: l).getLast? = some last) :
    (tierBuckets (a :: l) ++ [TierWhen.atLeast last]).Pairwise (fun v w => ∀ x, InTier v x → ¬ InTier w x) ∧
    ∀ w ∈ tierBuckets (a :: l) ++ [.atLeast last], ∀ x, InTier w x → a ≤ x := by
  induction l generalizing a with
  | nil =>
    have : a = last := by simpa using hl
    subst this
    exact ⟨by simp [tierBuckets], by simp [tierBuckets, InTier]⟩
  | cons b rest ih =>
    have hs' := List.pairwise_cons.mp hs
    obtain ⟨i1, i2⟩ := ih b hs'.2 (by simpa using hl)
    have hab : a < b := hs'.1 b (by simp)
    simp only [tierBuckets, List.cons_append, List.pairwise_cons, List.mem_cons]
    refine ⟨⟨?_, i1⟩, ?_⟩
    · intro w hw x hx hwx
      have := i2 w hw x hwx
      exact absurd hx.2 (not_lt.mpr this)
    · rintro w (rfl | hw) x hx
      · exact hx.1
      · exact le_trans (le_of_lt hab) (i2 w hw x hx)

/-- C31 (b): with strictly increasing boundaries every number lies in exactly one of the tiers (counted
by position), and that is the tier the expression chooses. -/
theorem C31_partition (tiers : List ℚ) (hne : tiers ≠ []) (hs : tiers.Pairwise (· < ·)) :
    ∃ whens, tierCase tiers = .ok whens ∧ whens.length = tiers.length + 1 ∧
      ∀ x : ℚ, (∃! i : Fin whens.length, InTier whens[i] x) ∧
        ∀ i : Fin whens.length, InTier whens[i] x → tierOf whens (some x) = some whens[i] := by
  obtain ⟨a, l, rfl⟩ := List.exists_cons_of_ne_nil hne
  obtain ⟨last, hl, hc⟩ := tierCase_cons a l
  have hd : (TierWhen.below a :: tierBuckets (a :: l) ++ [TierWhen.atLeast last]).Pairwise
      (fun v w => ∀ x, InTier v x → ¬ InTier w x) := by
    obtain ⟨h1, h2⟩ := buckets_disjoint a l last hs hl
    rw [List.cons_append, List.pairwise_cons]
    exact ⟨fun w hw x hx hwx => absurd hx (not_lt.mpr (h2 w hw x hwx)), h1⟩
  have hlen : ∀ (a : ℚ) (l : List ℚ), (tierBuckets (a :: l)).length = l.length := by
    intro a l
    induction l generalizing a with
    | nil => rfl
    | cons b rest ih => simp only [tierBuckets, List.length_cons, ih]
  refine ⟨_, hc, by simp [hlen], fun x => ?_⟩
  obtain ⟨ws, hc', ht⟩ := C31_total (a :: l) (by simp)
  rw [hc] at hc'
  injection hc' with hc'
  subst hc'
  obtain ⟨w, hw, hin⟩ := ht x
  obtain ⟨i, hi, he⟩ := List.getElem_of_mem (List.mem_of_find?_eq_some hw)
  generalize (TierWhen.below a :: tierBuckets (a :: l) ++ [TierWhen.atLeast last]) = whens at *
  rw [List.pairwise_iff_getElem] at hd
  have uniq : ∀ j (hj : j < whens.length), InTier whens[j] x → j = i := by
    intro j hj hj1
    rcases lt_trichotomy i j with h | h | h
    · exact absurd hj1 (hd i j hi hj h x (by rw [he]; exact hin))
    · exact h.symm
    · exact absurd (by rw [he]; exact hin) (hd j i hj hi h x hj1)
  refine ⟨⟨⟨i, hi⟩, by show InTier whens[i] x; rw [he]; exact hin, ?_⟩, ?_⟩
  · rintro ⟨j, hj⟩ hj1
    have := uniq j hj hj1
    subst this; rfl
  · rintro ⟨j, hj⟩ hj1
    have := uniq j hj hj1
    subst this
    show _ = some whens[j]
    rw [he]; exact hw

/-- C31 (c): NULL is 'Unknown', for any boundaries. -/
theorem C31_null (tiers : List ℚ) (whens : List TierWhen) (_h : tierCase tiers = .ok whens) :
    tierOf whens none = none := by
  unfold tierOf
  rw [List.find?_eq_none]
  intro w _
  cases w <;> simp [TierWhen.holds]

/-- C31 (d): in the SQL text a branch that is true gives the label of its tier. -/
theorem C31_label (num : ℚ → String) (sql : String) (w : TierWhen) :
    ∃ condition, w.text num sql = "when " ++ condition ++ " then '" ++ tierLabel num w ++ "' " := by
  have e1 : " then 'Below " = " then '" ++ "Below " := by decide +kernel
  have e2 : " then '[" = " then '" ++ "[" := by decide +kernel
  have e3 : ")' " = ")" ++ "' " := by decide +kernel
  have e4 : ",inf)' " = ",inf)" ++ "' " := by decide +kernel
  cases w with
  | below b =>
    refine ⟨sql ++ " < " ++ num b, ?_⟩
    unfold TierWhen.text tierLabel
    rw [e1]
    simp only [String.append_assoc]
  | between a b =>
    refine ⟨sql ++ " >= " ++ num a ++ " and " ++ sql ++ " < " ++ num b, ?_⟩
    unfold TierWhen.text tierLabel
    rw [e2, e3]
    simp only [String.append_assoc]
  | atLeast a =>
    refine ⟨sql ++ " >= " ++ num a, ?_⟩
    unfold TierWhen.text tierLabel
    rw [e2, e4]
    simp only [String.append_assoc]

/-- The condition that the boundaries increase is needed: 3 is both below 5 and from 1 up. -/
theorem C31_unsorted : ∃ whens, tierCase [5, 1] = .ok whens ∧ TierWhen.below 5 ∈ whens ∧ .atLeast 1 ∈ whens ∧
    InTier (.below 5) 3 ∧ InTier (.atLeast 1) 3 := by
  refine ⟨_, rfl, by simp, by simp [tierBuckets], ?_, ?_⟩ <;> simp only [InTier] <;> norm_num

/-- Without boundaries there is no expression at all. -/
theorem C31_empty : tierCase [] = .error .indexError := rfl

/-- Three boundaries, four tiers. -/
example : ∃ whens, tierCase [0, 10, 20] = .ok whens ∧ whens.length = 4 ∧
      ∀ x : ℚ, (∃! i : Fin whens.length, InTier whens[i] x) ∧
        ∀ i : Fin whens.length, InTier whens[i] x → tierOf whens (some x) = some whens[i] :=
  C31_partition [0, 10, 20] (by simp) (by norm_num)

example : tierText (fun q => toString q.num) "v" [.below 0, .between 0 10, .atLeast 10] =
  "case when v < 0 then 'Below 0' when v >= 0 and v < 10 then '[0,10)' when v >= 10 then '[10,inf)' else 'Unknown' end" := by
  decide +kernel

end ML
