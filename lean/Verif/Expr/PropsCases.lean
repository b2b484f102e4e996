import Verif.Expr.Props
/-
C76: concrete cases, and where the property fails.
-/
set_option autoImplicit false
namespace ML
open Spec

namespace ExprShop

/-- A metric with an aggregate (an example; it models no file in /repo). -/
def base (sql : String) : MetricField := ⟨"orders".toList, false, [], .ok sql.toList⟩

/-- A metric of type number (an example; it models no file in /repo). -/
def number (ps : List Piece) : MetricField := ⟨"orders".toList, true, render ps, .error .query⟩

/-- `${revenue} - ${cost}` (an example; it models no file in /repo). -/
def marginText : List Piece := [.ref "revenue".toList, .lit " - ".toList, .ref "cost".toList]

/-- `100 * ${margin} / nullif(${revenue}, 0)` (an example; it models no file in /repo). -/
def rateText : List Piece := [.lit "100 * ".toList, .ref "margin".toList, .lit " / nullif(".toList, .ref "revenue".toList, .lit ", 0)".toList]

/-- The metrics of a shop (an example; it models no file in /repo). -/
def get (_ name : List Char) : Res MetricField :=
  if name = "revenue".toList then .ok (base "SUM(orders.revenue)")
  else if name = "cost".toList then .ok (base "SUM(case when orders.kind = 'a (b' then orders.cost end)")
  else if name = "margin".toList then .ok (number marginText)
  else if name = "rate".toList then .ok (number rateText)
  else .error .accessDenied

/-- The pieces of their texts (an example; it models no file in /repo). -/
def pieces (f : MetricField) : List Piece := if f.sql = render marginText then marginText else rateText

/-- The references of `rate` are followed down to the aggregates. -/
example : metricSql get 3 (number rateText) =
    .ok "100 * ((SUM(orders.revenue)) - (SUM(case when orders.kind = 'a (b' then orders.cost end))) / nullif((SUM(orders.revenue)), 0)".toList := by
  decide +kernel

/-- And the warehouse reads what the author wrote: a hundred times the margin, divided by the revenue. -/
example : ∃ revenue cost, readText "SUM(orders.revenue)".toList = some revenue ∧
    readText "SUM(case when orders.kind = 'a (b' then orders.cost end)".toList = some cost ∧
    metricMeaning get pieces 3 (number rateText) = some (.bin ['/'] (.bin ['*'] (.atom "100".toList) (.bin ['-'] revenue cost))
      (.call "nullif".toList (.cons revenue (.cons (.atom ['0']) .nil)))) ∧
    (metricSql get 3 (number rateText)).toOption.bind readText = metricMeaning get pieces 3 (number rateText) := by
  refine ⟨_, _, rfl, rfl, ?_, ?_⟩ <;> decide +kernel

theorem ordinary_margin : OrdinaryText marginText := by
  intro p hp
  simp only [marginText, List.mem_cons, List.not_mem_nil, or_false] at hp
  rcases hp with rfl | rfl | rfl <;> decide +kernel

theorem ordinary_rate : OrdinaryText rateText := by
  intro p hp
  simp only [rateText, List.mem_cons, List.not_mem_nil, or_false] at hp
  rcases hp with rfl | rfl | rfl | rfl | rfl <;> decide +kernel

/-- The hypotheses of `C76_nested` are met by all metrics of the shop. -/
theorem ordinary (v m : List Char) (g : MetricField) (h : get v m = .ok g) : OrdinaryNumber pieces g := by
  unfold get at h
  split_ifs at h <;> cases h
  · exact ⟨by simp [base], by decide +kernel, by
      intro t ht
      cases ht
      decide +kernel⟩
  · exact ⟨by simp [base], by decide +kernel, by
      intro t ht
      cases ht
      decide +kernel⟩
  · refine ⟨fun _ => ?_, by decide +kernel, fun t ht => by cases ht⟩
    have e : pieces (number marginText) = marginText := by decide +kernel
    rw [e]
    exact ⟨rfl, ordinary_margin, by decide +kernel⟩
  · refine ⟨fun _ => ?_, by decide +kernel, fun t ht => by cases ht⟩
    have e : pieces (number rateText) = rateText := by decide +kernel
    rw [e]
    exact ⟨rfl, ordinary_rate, by decide +kernel⟩

example : ∃ s e, metricSql get 3 (number rateText) = .ok s ∧ readText s = some e := by
  obtain ⟨e, he⟩ : ∃ e, metricMeaning get pieces 3 (number rateText) = some e := Option.isSome_iff_exists.mp (by decide +kernel)
  obtain ⟨s, h1, _, _, _, h2⟩ := C76_nested get pieces ordinary 3 (number rateText) (ordinary [] "rate".toList _ (by rfl)) e he
  exact ⟨s, e, h1, h2 rfl⟩

/-- A dimension (an example; it models no file in /repo). -/
def dim (ps : List Piece) : RField := ⟨"orders".toList, some (render ps), false, id⟩

/-- `${TABLE}.price + 1` (an example; it models no file in /repo). -/
def sumText : List Piece := [.ref "TABLE".toList, .lit ".price + 1".toList]
/-- `coalesce(${TABLE}.price, 0)` (an example; it models no file in /repo). -/
def callText : List Piece := [.lit "coalesce(".toList, .ref "TABLE".toList, .lit ".price, 0)".toList]
/-- `-${TABLE}.price` (an example; it models no file in /repo). -/
def minusText : List Piece := [.lit "-".toList, .ref "TABLE".toList, .lit ".price".toList]

/-- The dimensions of a shop (an example; it models no file in /repo). -/
def dims (_ name : List Char) : Res RField :=
  if name = "more".toList then .ok (dim sumText)
  else if name = "price".toList then .ok (dim callText)
  else if name = "debt".toList then .ok (dim minusText)
  else .error .accessDenied

/-- `${price} * 2` (an example; it models no file in /repo). -/
def doubleText : List Piece := [.ref "price".toList, .lit " * 2".toList]

/-- The case of `C76_dimension_partial`: a call is one operand. -/
example : rawSql dims 2 (dim doubleText) = .ok "coalesce(orders.price, 0) * 2".toList ∧ (aloneText "coalesce(orders.price, 0)".toList).isSome ∧
    readPieces (withView "orders".toList doubleText) = some (.bin ['*'] (.ref "price".toList) (.atom ['2'])) := by
  refine ⟨?_, ?_, ?_⟩ <;> decide +kernel

/-- The pieces of the texts of these dimensions (an example; it models no file in /repo). -/
def dimPieces (f : RField) : List Piece :=
  if f.sql = some (render callText) then callText else if f.sql = some (render doubleText) then doubleText
  else if f.sql = some (render minusText) then minusText else sumText

theorem ordinary_dims (v m : List Char) (g : RField) (h : dims v m = .ok g) : OrdinaryField dimPieces g := by
  unfold dims at h
  split_ifs at h <;> cases h
  · refine ⟨fun t ht => ?_, by decide +kernel, fun _ h => h⟩
    cases ht
    have e : dimPieces (dim sumText) = sumText := by decide +kernel
    rw [e]
    refine ⟨rfl, fun p hp => ?_⟩
    simp only [sumText, List.mem_cons, List.not_mem_nil, or_false] at hp
    rcases hp with rfl | rfl <;> decide +kernel
  · refine ⟨fun t ht => ?_, by decide +kernel, fun _ h => h⟩
    cases ht
    have e : dimPieces (dim callText) = callText := by decide +kernel
    rw [e]
    refine ⟨rfl, fun p hp => ?_⟩
    simp only [callText, List.mem_cons, List.not_mem_nil, or_false] at hp
    rcases hp with rfl | rfl | rfl <;> decide +kernel
  · refine ⟨fun t ht => ?_, by decide +kernel, fun _ h => h⟩
    cases ht
    have e : dimPieces (dim minusText) = minusText := by decide +kernel
    rw [e]
    refine ⟨rfl, fun p hp => ?_⟩
    simp only [minusText, List.mem_cons, List.not_mem_nil, or_false] at hp
    rcases hp with rfl | rfl | rfl <;> decide +kernel

/-- The hypotheses of `C76_dimension_partial` are met. -/
example : ∃ s σ, rawSql dims 2 (dim doubleText) = .ok s ∧ readText s = some (SExp.subst σ (.bin ['*'] (.ref "price".toList) (.atom ['2']))) := by
  have e : dimPieces (dim doubleText) = doubleText := by decide +kernel
  obtain ⟨a, ha⟩ : ∃ a, aloneText "coalesce(orders.price, 0)".toList = some a := Option.isSome_iff_exists.mp (by decide +kernel)
  obtain ⟨s, h1, h2, _⟩ := C76_dimension_partial dims dimPieces ordinary_dims 1 (dim doubleText)
    ⟨fun t ht => by
      cases ht
      rw [e]
      refine ⟨rfl, fun p hp => ?_⟩
      simp only [doubleText, List.mem_cons, List.not_mem_nil, or_false] at hp
      rcases hp with rfl | rfl <;> decide +kernel, by decide +kernel, fun _ h => h⟩ rfl (by rw [e]; rfl) rfl
    (.bin ['*'] (.ref "price".toList) (.atom ['2'])) (by rw [e]; decide +kernel) (fun _ => "coalesce(orders.price, 0)".toList) (fun _ => a)
    (by
      intro m hm _
      rw [e] at hm
      simp only [doubleText, refNames, List.mem_singleton] at hm
      subst hm
      refine ⟨dim callText, rfl, by decide +kernel, ha, ?_⟩
      have : (exprTokens "coalesce(orders.price, 0)".toList) =
          [.word "coalesce".toList, .lp, .word "orders.price".toList, .comma, .word "0".toList, .rp] := by decide +kernel
      rw [this]
      intro s hs
      simp at hs)
    (by
      rw [e]
      have : pieceTokens .idle (withView (dim doubleText).view doubleText) = [.ref "price".toList, .op ['*'], .word ['2']] := by decide +kernel
      rw [this]
      intro s hs
      simp at hs)
  exact ⟨s, _, h1, h2⟩

/-- Arithmetic on whole numbers, the price being 5 (an example; it models no file in /repo). -/
def ints : Interp ℤ where
  atom s := if s = "1".toList then 1 else if s = "2".toList then 2 else if s = "0".toList then 0 else 5
  str _ := 0
  other _ := 0
  call _ a := a
  tuple a := a
  bin o a b := if o = ['+'] then a + b else if o = ['*'] then a * b else a - b
  un _ a := -a
  nil := 0
  cons a _ := a

end ExprShop

open ExprShop

/-- C76 fails for dimensions in general: `${more} * 2` with `more` defined as `${TABLE}.price + 1` becomes `orders.price + 1 * 2`. With a price of 5 the author
means 12; the warehouse computes 7. -/
theorem C76_taken_apart : rawSql dims 2 (dim [.ref "more".toList, .lit " * 2".toList]) = .ok "orders.price + 1 * 2".toList ∧
    rawSql dims 1 (dim sumText) = .ok "orders.price + 1".toList ∧
    (∃ E more got, readPieces [.ref "more".toList, .lit " * 2".toList] = some E ∧ readText "orders.price + 1".toList = some more ∧
      readText "orders.price + 1 * 2".toList = some got ∧ got ≠ E.subst (fun _ => more) ∧
      E.value ints (fun _ => more.value ints (fun _ => 0)) = 12 ∧ got.value ints (fun _ => 0) = 7) := by
  refine ⟨by decide +kernel, by decide +kernel, _, _, _, rfl, rfl, rfl, ?_, ?_, ?_⟩ <;> decide +kernel

/-- C76 fails for dimensions in general: `0 -${debt}` with `debt` defined as `-${TABLE}.price` becomes `0 --orders.price`, which ends at the comment. -/
theorem C76_comment : rawSql dims 2 (dim [.lit "0 -".toList, .ref "debt".toList]) = .ok "0 --orders.price".toList ∧
    (readPieces [.lit "0 -".toList, .ref "debt".toList]).isSome ∧ (readText "-orders.price".toList).isSome ∧
    readText "0 --orders.price".toList = none := by
  refine ⟨?_, ?_, ?_, ?_⟩ <;> decide +kernel

/-- The same texts as metrics of type number are read as written. -/
theorem C76_not_taken_apart : numberSql "orders".toList (fun _ => .ok "-orders.price + 1".toList) "0 -${more} * 2".toList =
      .ok "0 -(-orders.price + 1) * 2".toList ∧
    (readText "0 -(-orders.price + 1) * 2".toList).map (fun e => e.value ints (fun _ => 0)) = some 8 := by
  refine ⟨?_, ?_⟩ <;> decide +kernel

end ML
