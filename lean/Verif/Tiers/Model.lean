import Verif.Basic
import Mathlib.Data.Rat.Defs
import Mathlib.Algebra.Order.Ring.Rat
/-
Tier dimensions: `/repo/metrics_layer/core/model/field.py`, `_translate_looker_tier_to_sql`.
-/
set_option autoImplicit false
namespace ML

/-- One branch of the CASE expression (field.py 2618, 2624, 2628). -/
inductive TierWhen where
  | below (b : ℚ)          -- when x < b then 'Below b'
  | between (a b : ℚ)      -- when x >= a and x < b then '[a,b)'
  | atLeast (a : ℚ)        -- when x >= a then '[a,inf)'
  deriving DecidableEq, Repr

/-- The bucketed branches, one for each boundary but the last (field.py 2622-2625). -/
def tierBuckets : List ℚ → List TierWhen
  | a :: b :: rest => .between a b :: tierBuckets (b :: rest)
  | _ => []

/-- `_translate_looker_tier_to_sql` (field.py 2616-2630): the branches in order. The first and last
boundary are taken by index, which fails on the empty list. Simplification: boundaries are numbers, and
the text `x` is the same in all branches. -/
def tierCase (tiers : List ℚ) : Res (List TierWhen) :=
  match tiers.head?, tiers.getLast? with
  | some first, some last => .ok (.below first :: tierBuckets tiers ++ [.atLeast last])
  | _, _ => .error .indexError

/-- The SQL text of a branch (field.py 2618, 2624, 2628). Boundaries are printed by `show`. -/
def TierWhen.text (num : ℚ → String) (sql : String) : TierWhen → String
  | .below b => "when " ++ sql ++ " < " ++ num b ++ " then 'Below " ++ num b ++ "' "
  | .between a b => "when " ++ sql ++ " >= " ++ num a ++ " and " ++ sql ++ " < " ++ num b ++
      " then '[" ++ num a ++ "," ++ num b ++ ")' "
  | .atLeast a => "when " ++ sql ++ " >= " ++ num a ++ " then '[" ++ num a ++ ",inf)' "

/-- The SQL text of the whole expression (field.py 2617-2630). -/
def tierText (num : ℚ → String) (sql : String) (whens : List TierWhen) : String :=
  "case " ++ String.join (whens.map (TierWhen.text num sql)) ++ "else 'Unknown' end"

/-- SQL truth of a branch's condition (field.py 2618, 2624, 2628); `none` is NULL, on which no comparison
is true. -/
def TierWhen.holds : TierWhen → Option ℚ → Bool
  | _, none => false
  | .below b, some x => x < b
  | .between a b, some x => a ≤ x && x < b
  | .atLeast a, some x => a ≤ x

/-- SQL value of the CASE expression (field.py 2616-2630): the first branch whose condition is true;
`none` stands for 'Unknown'. -/
def tierOf (whens : List TierWhen) (x : Option ℚ) : Option TierWhen := whens.find? (fun w => w.holds x)

end ML
