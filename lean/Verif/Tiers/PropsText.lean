import Verif.Tiers.Props
/- C31: the text of the whole expression, branch by branch, and what its comparisons mean. -/
set_option autoImplicit false
namespace ML
namespace Spec

/-- What the warehouse makes of `x op b` on numbers (`op` is written with its spaces). -/
def TierCompares (op : String) (x b : ℚ) : Prop := op = " < " ∧ x < b ∨ op = " >= " ∧ b ≤ x

/-- A branch of a CASE expression on `sql`: all comparisons of the branch, and the label it gives. -/
def branchText (num : ℚ → String) (sql : String) (b : List (String × ℚ) × String) : String :=
  "when " ++ " and ".intercalate (b.1.map (fun t => sql ++ t.1 ++ num t.2)) ++ " then '" ++ b.2 ++ "' "

end Spec
open Spec

/-- The comparisons of a branch (for the proofs; it models no file in /repo). -/
def tierTests : TierWhen → List (String × ℚ)
  | .below b => [(" < ", b)]
  | .between a b => [(" >= ", a), (" < ", b)]
  | .atLeast a => [(" >= ", a)]

theorem branchText_tier (num : ℚ → String) (sql : String) (w : TierWhen) :
    w.text num sql = branchText num sql (tierTests w, tierLabel num w) := by
  have e1 : " then 'Below " = " then '" ++ "Below " := by decide +kernel
  have e2 : " then '[" = " then '" ++ "[" := by decide +kernel
  have e3 : ")' " = ")" ++ "' " := by decide +kernel
  have e4 : ",inf)' " = ",inf)" ++ "' " := by decide +kernel
  cases w with
  | below b =>
    have : " and ".intercalate ([(" < ", b)].map (fun t => sql ++ t.1 ++ num t.2)) = sql ++ " < " ++ num b := rfl
    unfold TierWhen.text tierLabel branchText tierTests
    simp only [this]
    simp only [e1, String.append_assoc]
  | between a b =>
    have : " and ".intercalate ([(" >= ", a), (" < ", b)].map (fun t => sql ++ t.1 ++ num t.2)) =
      sql ++ " >= " ++ num a ++ " and " ++ (sql ++ " < " ++ num b) := rfl
    unfold TierWhen.text tierLabel branchText tierTests
    simp only [this]
    simp only [e2, e3, String.append_assoc]
  | atLeast a =>
    have : " and ".intercalate ([(" >= ", a)].map (fun t => sql ++ t.1 ++ num t.2)) = sql ++ " >= " ++ num a := rfl
    unfold TierWhen.text tierLabel branchText tierTests
    simp only [this]
    simp only [e2, e4, String.append_assoc]

/-- C31 (e): the SQL text is a CASE expression with one branch for each tier, in order. The comparisons written in a branch are all
true of a number exactly when the number lies in the tier, and the branch gives the label of the tier; anything else is 'Unknown'. -/
theorem C31_text (num : ℚ → String) (sql : String) (whens : List TierWhen) :
    ∃ branches : List (List (String × ℚ) × String),
      tierText num sql whens = "case " ++ String.join (branches.map (branchText num sql)) ++ "else 'Unknown' end" ∧
      List.Forall₂ (fun w b => b.2 = tierLabel num w ∧ ∀ x : ℚ, InTier w x ↔ ∀ t ∈ b.1, TierCompares t.1 x t.2) whens branches := by
  refine ⟨whens.map (fun w => (tierTests w, tierLabel num w)), ?_, ?_⟩
  · rw [tierText, List.map_map]
    congr 3
    exact List.map_congr_left (fun w _ => branchText_tier num sql w)
  · rw [List.forall₂_map_right_iff, List.forall₂_same]
    intro w _
    refine ⟨rfl, fun x => ?_⟩
    cases w <;> simp [InTier, tierTests, TierCompares]

/-- Two boundaries: the text, with the comparisons of the branch in the middle. -/
example : tierText (fun q => toString q.num) "v" [.below 0, .between 0 10, .atLeast 10] =
    "case " ++ String.join ([([(" < ", (0 : ℚ))], "Below 0"), ([(" >= ", 0), (" < ", 10)], "[0,10)"), ([(" >= ", 10)], "[10,inf)")].map
      (branchText (fun q => toString q.num) "v")) ++ "else 'Unknown' end" := by
  decide +kernel

end ML
