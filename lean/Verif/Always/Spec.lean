import Verif.Always.Model
/-
Specification vocabulary for C42.
-/
set_option autoImplicit false
namespace ML.Spec

/-- The condition `c` comes from an always filter of the view of a requested field, the filters of
that view being well formed. -/
def Required (env : AlwaysEnv) (fields : List String) (c : Items) : Prop :=
  ∃ f ∈ fields, ∃ v, env.view f = .ok v ∧
    ∃ a ∈ v.filters, ∃ n cs, a.field = some n ∧
      env.expand (if '.' ∈ n.toList then n else v.name ++ "." ++ n) a.rest = .ok cs ∧ c ∈ cs

/-- All always filters of the views of the requested fields are well formed. -/
def ReadableAlways (env : AlwaysEnv) (fields : List String) : Prop :=
  ∀ f ∈ fields, ∀ v, env.view f = .ok v → ∀ a ∈ v.filters, ∃ n cs, a.field = some n ∧
    env.expand (if '.' ∈ n.toList then n else v.name ++ "." ++ n) a.rest = .ok cs

mutual
/-- No dict with "conditional_filter_logic" inside. -/
def NoWrap : WEntry → Prop
  | .cond _ => True
  | .wrapped _ _ => False
  | .group cs _ => NoWrapList cs
/-- The same for a list. -/
def NoWrapList : List WEntry → Prop
  | [] => True
  | e :: es => NoWrap e ∧ NoWrapList es
end

mutual
/-- `b` is `a` without the "conditional_filter_logic" wrappers: a wrapper is replaced by what it wraps, in groups at every depth (what a
wrapper wraps is not looked into). -/
inductive UnwrapsTo : WEntry → WEntry → Prop where
  | cond (i : Items) : UnwrapsTo (.cond i) (.cond i)
  | wrapped (e : WEntry) (i : Items) : UnwrapsTo (.wrapped e i) e
  | group (cs ds : List WEntry) (i : Items) (h : UnwrapsAll cs ds) : UnwrapsTo (.group cs i) (.group ds i)
/-- The same for a list, entry by entry. -/
inductive UnwrapsAll : List WEntry → List WEntry → Prop where
  | nil : UnwrapsAll [] []
  | cons (a b : WEntry) (as bs : List WEntry) (h : UnwrapsTo a b) (hs : UnwrapsAll as bs) : UnwrapsAll (a :: as) (b :: bs)
end

end ML.Spec
