import Verif.Funnel.Props
/- C38: units of the window, the event date, the names in the statement, and rejected funnels. -/
set_option autoImplicit false
namespace ML
open Spec
variable {S E P T : Type} [DecidableEq P] [LinearOrder T]

/-- C38: the unit of the window may be written in the singular or the plural, in small letters: both name the same unit. -/
theorem C38_unit (u : String) (h : u.toLower = u) (hs : ∀ c, u.toList.getLast? = some c → c ≠ 's') (hne : u ≠ "")
    (h2 : (u ++ "s").toLower = u ++ "s") : pluralUnit u = .ok (u ++ "s") ∧ pluralUnit (u ++ "s") = .ok (u ++ "s") := by
  constructor
  · unfold pluralUnit
    cases hl : u.toList.getLast? with
    | none =>
      rw [List.getLast?_eq_none_iff] at hl
      exact absurd (String.toList_inj.mp (by rw [hl]; rfl)) hne
    | some c =>
      have := hs c hl
      split
      · rename_i h'; cases h'
      · rename_i h'; injection h' with h'; exact absurd h' this
      · rw [h]
  · unfold pluralUnit
    have : (u ++ "s").toList.getLast? = some 's' := by
      rw [String.toList_append]
      simp
    rw [this]
    simp only
    rw [h2]

example : ∀ u ∈ ["second", "minute", "hour", "day", "week", "month", "quarter", "year"], u.toLower = u ∧ u ≠ "" ∧ (u ++ "s").toLower = u ++ "s" ∧
    (u.toList.getLast?).all (fun c => c ≠ 's') = true := by decide +kernel

/-- C38 fails for units in capitals: the singular is read, the plural is not. -/
theorem C38_unit_capitals : pluralUnit "HOUR" = .ok "hours" ∧ pluralUnit "HOURS" = .ok "hourss" := by
  constructor <;> decide +kernel

/-- C38: the event date of a funnel is the raw form of a default date: that of the view that is named; without a name, that of the view of
the only metric, which may itself name the date of another view. -/
theorem C38_event_date (v d : String) (hd : '.' ∉ d.toList) (ms : List (String × String)) (v' : String) (hv' : '.' ∉ v'.toList) :
    eventDate (some (v, d)) ms = .ok (v ++ "." ++ d ++ "_raw") ∧
    eventDate none [(v, d)] = .ok (v ++ "." ++ d ++ "_raw") ∧
    eventDate none [(v, v' ++ "." ++ d)] = .ok (v' ++ "." ++ d ++ "_raw") := by
  have hone : ∀ l : List Char, '.' ∉ l → splitChars '.' l = [l] := by
    intro l
    induction l with
    | nil => intro _; rfl
    | cons c l ih =>
      intro h
      simp only [List.mem_cons, not_or] at h
      simp [splitChars, ih h.2, Ne.symm h.1]
  have htwo : ∀ l r : List Char, '.' ∉ l → splitChars '.' (l ++ '.' :: r) = l :: splitChars '.' r := by
    intro l
    induction l with
    | nil => intro r _; simp [splitChars]
    | cons c l ih =>
      intro r h
      simp only [List.mem_cons, not_or] at h
      simp [splitChars, ih r h.2, Ne.symm h.1]
  refine ⟨rfl, ?_, ?_⟩
  · simp only [eventDate]
    rw [hone _ hd]
  · simp only [eventDate]
    have : (v' ++ "." ++ d).toList = v'.toList ++ '.' :: d.toList := by
      simp [String.toList_append]
    rw [this, htwo _ _ hv', hone _ hd]
    simp

/-- C38 fails for a named view whose default date is in another view: the name asked for has three parts. -/
theorem C38_event_date_other_view : eventDate (some ("sessions", "events.event")) [] = .ok "sessions.events.event_raw" := by decide +kernel

/-- C38: a funnel without steps is not answered: an error of the program, not of the query. -/
theorem C38_no_steps (known : String → Bool) (d : FunnelData S E P T) (w : StepWindow) :
    evalFunnel known d w [] = .error .unboundLocal := rfl

/-- C38: with two or more steps a window without a unit is a KeyError, one with the empty unit an IndexError, one with a unit
the warehouse does not know a query error. -/
theorem C38_bad_unit (known : String → Bool) (d : FunnelData S E P T) (value : Option ℤ) (a b : S) (rest : List S) :
    evalFunnel known d ⟨none, value⟩ (a :: b :: rest) = .error .keyError ∧
    evalFunnel known d ⟨some "", value⟩ (a :: b :: rest) = .error .indexError ∧
    ∀ u u' n, pluralUnit u = .ok u' → known u' = false → evalFunnel known d ⟨some u, some n⟩ (a :: b :: rest) = .error .query := by
  have key : ∀ w e, withinSql known w 2 = .error e → evalFunnel known d w (a :: b :: rest) = .error e := by
    intro w e he
    have h1 : stepSql known w 1 b = .error e := by
      unfold stepSql
      simp only [he]
      rfl
    unfold evalFunnel funnelSql
    have h0 : stepSql known w 0 a = .ok ⟨stepName 1, none, a, none, none⟩ := rfl
    have hss : stepSqls known w 0 (a :: b :: rest) = .error e := by
      simp only [stepSqls, h0, Nat.zero_add, h1]
    rw [hss]
  refine ⟨key _ _ rfl, key _ _ ?_, ?_⟩
  · have : pluralUnit "" = .error .indexError := by decide +kernel
    simp only [withinSql, this]
  · intro u u' n hu hk
    apply key
    simp only [withinSql, hu, hk]
    rfl

/-- The names in the statement of a funnel of two steps. -/
example : (funnelSql (fun u => u == "hours") ⟨some "hour", some 24⟩ ["visit", "buy"]).map (fun r => r.1.map (fun s => (s.name, s.join.map (·.prev)))) =
    .ok [("step_1", none), ("step_2", some "step_1")] := by decide +kernel

example : (funnelSql (fun u => u == "hours") ⟨some "hour", some 24⟩ ["visit", "buy"]).map (fun r => r.2.map (fun u => (u.label, u.cte))) =
    .ok [("Step 1", "step_1"), ("Step 2", "step_2")] := by decide +kernel

end ML
