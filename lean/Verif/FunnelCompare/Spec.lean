import Verif.Funnel.Spec
/-
Funnels that are compared with each other (C86).
-/
set_option autoImplicit false
namespace ML.Spec
variable {S E P T : Type}

/-- The step `s'` asks for no more than the step `s`: every event that satisfies `s` satisfies `s'`. -/
def AsksLess (d : FunnelData S E P T) (s s' : S) : Prop := ∀ e, d.holds s e = true → d.holds s' e = true

/-- The first funnel asks, step by step, for no less than the second: the second has at least its steps, and each asks for no more. -/
def AsksMore (d : FunnelData S E P T) (steps steps' : List S) : Prop := ∀ (i : ℕ) s, steps[i]? = some s → ∃ s', steps'[i]? = some s' ∧ AsksLess d s s'

/-- The events of a person. -/
def EventOf (d : FunnelData S E P T) (p : P) (e : E) : Prop := e ∈ d.events ∧ d.person e = some p

end ML.Spec
