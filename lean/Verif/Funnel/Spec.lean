import Verif.Funnel.Model
/- What C38 says, apart from the model's functions. -/
set_option autoImplicit false
namespace ML
namespace Spec
variable {S E P T : Type} [LinearOrder T]

/-- Event `b` comes after event `a` of the same (known) person, at a strictly later time. -/
def Follows (d : FunnelData S E P T) (a b : E) : Prop :=
  (∃ p, d.person a = some p ∧ d.person b = some p) ∧ ∃ s t, d.time a = some s ∧ d.time b = some t ∧ s < t

/-- Event `e` is within the window from event `a`: the warehouse's date difference, in the unit, is at most the value. -/
def WithinStep (d : FunnelData S E P T) (unit : String) (value : ℤ) (a e : E) : Prop :=
  ∃ s t n, d.time a = some s ∧ d.time e = some t ∧ d.diff unit s t = some n ∧ n ≤ value

/-- `c` is a chain of events for the first `c.length` steps. -/
structure FunnelChain (d : FunnelData S E P T) (unit : String) (value : ℤ) (steps : List S) (c : List E) : Prop where
  /-- All are events of the table. -/
  events : ∀ e ∈ c, e ∈ d.events
  /-- The i-th satisfies the conditions of step i. -/
  holds : ∀ (i : ℕ) e, c[i]? = some e → ∃ s, steps[i]? = some s ∧ d.holds s e = true
  /-- They are of one person and strictly increase in time. -/
  order : ∀ (i : ℕ) a b, c[i]? = some a → c[i + 1]? = some b → Follows d a b
  /-- Each later one is within the window from the first. -/
  window : ∀ (i : ℕ) a e, 0 < i → c[0]? = some a → c[i]? = some e → WithinStep d unit value a e

/-- All sequences of `n` events, counted with repetition. -/
def sequences (events : List E) : ℕ → List (List E)
  | 0 => [[]]
  | n + 1 => events.flatMap fun e => (sequences events n).map (· ++ [e])

open Classical in
/-- The rows step `n` should have: one for each chain of `n` events, made of its last event and the time of its first. -/
noncomputable def chainRows (d : FunnelData S E P T) (unit : String) (value : ℤ) (steps : List S) (n : ℕ) : List (StepRow E T) :=
  ((sequences d.events n).filter fun c => decide (FunnelChain d unit value steps c)).filterMap fun c =>
    match c.head?, c.getLast? with
    | some a, some e => some (e, d.time a)
    | _, _ => none

/-- A person reaches step `n`: some chain of `n` of their events exists. -/
def ReachesStep (d : FunnelData S E P T) (unit : String) (value : ℤ) (steps : List S) (n : ℕ) (p : P) : Prop :=
  ∃ c e, c.length = n ∧ FunnelChain d unit value steps c ∧ c.getLast? = some e ∧ d.person e = some p

end Spec
end ML
