import Verif.Expr.PropsCases
/-
C76: metrics that refer to each other in a circle have no SQL, and the program ends in the exception of unbounded recursion.
-/
set_option autoImplicit false
namespace ML
open Spec

/-- The exception of the loop is that of the value of one of the names. -/
theorem replaceEach_origin (value : List Char → Res (List Char)) (ns : List (List Char)) (text : List Char) (e : Err)
    (h : replaceEach value ns text = .error e) : ∃ n ∈ ns, value n = .error e := by
  induction ns generalizing text with
  | nil => cases h
  | cons m ms ih =>
    simp only [replaceEach] at h
    cases hm : value m with
    | error e' => rw [hm] at h; cases h; exact ⟨m, by simp, hm⟩
    | ok v =>
      rw [hm] at h
      obtain ⟨n, hn, he⟩ := ih _ h
      exact ⟨n, by simp [hn], he⟩

/-- C76. Metrics of type number each of which names another of them (in a circle, or without end) have no SQL, however deep the references are followed. -/
theorem C76_circle (get : List Char → List Char → Res MetricField) (circle : MetricField → Prop)
    (h : ∀ f, circle f → f.isNumber = true ∧ ∃ ps, f.sql = render ps ∧ OrdinaryText ps ∧
      ∃ m ∈ refNames ps, m ≠ "TABLE".toList ∧ ∃ g, get f.view m = .ok g ∧ circle g)
    (n : ℕ) (f : MetricField) (hf : circle f) : ∃ e, metricSql get n f = .error e := by
  induction n generalizing f with
  | zero => exact ⟨_, rfl⟩
  | succ n ih =>
    obtain ⟨hn, ps, hs, hps, m, hm, ht, g, hg, hc⟩ := h f hf
    obtain ⟨e, he⟩ := ih g hc
    simp only [metricSql, hn, if_true, numberSql]
    refine replaceEach_error _ _ _ m e ?_ ?_
    · rw [hs, fieldsToReplace_render ps ((ordinary_iff ps).mp hps)]; exact hm
    · simp only [ht, if_false, hg, he]

/-- C76. When such metrics name nothing else than themselves and metrics with an aggregate, the exception is that of recursion. -/
theorem C76_circle_error (get : List Char → List Char → Res MetricField) (circle : MetricField → Prop)
    (h : ∀ f, circle f → f.isNumber = true ∧ ∃ ps, f.sql = render ps ∧ OrdinaryText ps ∧
      (∃ m ∈ refNames ps, m ≠ "TABLE".toList ∧ ∃ g, get f.view m = .ok g ∧ circle g) ∧
      ∀ m ∈ refNames ps, m ≠ "TABLE".toList → ∃ g, get f.view m = .ok g ∧ (circle g ∨ g.isNumber = false ∧ ∃ t, g.aggregate = .ok t))
    (n : ℕ) (f : MetricField) (hf : circle f) : metricSql get n f = .error .recursion := by
  obtain ⟨e, he⟩ := C76_circle get circle (fun f hf => by
    obtain ⟨h1, ps, h2, h3, h4, _⟩ := h f hf
    exact ⟨h1, ps, h2, h3, h4⟩) n f hf
  suffices e = .recursion by rw [he, this]
  induction n generalizing f e with
  | zero => cases he; rfl
  | succ n ih =>
    obtain ⟨hn, ps, hs, hps, _, hall⟩ := h f hf
    simp only [metricSql, hn, if_true, numberSql] at he
    obtain ⟨m, hm, hv⟩ := replaceEach_origin _ _ _ _ he
    rw [hs, fieldsToReplace_render ps ((ordinary_iff ps).mp hps)] at hm
    by_cases ht : m = "TABLE".toList
    · simp only [ht, if_true] at hv; cases hv
    · obtain ⟨g, hg, hc⟩ := hall m hm ht
      simp only [ht, if_false, hg] at hv
      cases hr : metricSql get n g with
      | ok v => rw [hr] at hv; cases hv
      | error e' =>
        rw [hr] at hv
        cases hv
        rcases hc with hc | ⟨hnum, t, ha⟩
        · exact ih g hc _ hr
        · cases n with
          | zero => cases hr; rfl
          | succ n => simp only [metricSql, hnum, Bool.false_eq_true, if_false, ha] at hr; cases hr

/-- Two metrics that name each other (an example; it models no file in /repo). -/
def circleGet (_ name : List Char) : Res MetricField :=
  if name = "a".toList then .ok (ExprShop.number [.lit "1 + ".toList, .ref "b".toList])
  else if name = "b".toList then .ok (ExprShop.number [.ref "total".toList, .lit " - ".toList, .ref "a".toList])
  else if name = "total".toList then .ok (ExprShop.base "SUM(orders.revenue)")
  else .error .accessDenied

example : metricSql circleGet 7 (ExprShop.number [.lit "1 + ".toList, .ref "b".toList]) = .error .recursion := by
  refine C76_circle_error circleGet (fun f => f = ExprShop.number [.lit "1 + ".toList, .ref "b".toList] ∨
    f = ExprShop.number [.ref "total".toList, .lit " - ".toList, .ref "a".toList]) ?_ 7 _ (.inl rfl)
  rintro f (rfl | rfl)
  · refine ⟨rfl, _, rfl, ?_, ⟨"b".toList, by decide +kernel, by decide +kernel, _, rfl, .inr rfl⟩, ?_⟩
    · intro p hp
      simp only [List.mem_cons, List.not_mem_nil, or_false] at hp
      rcases hp with rfl | rfl <;> decide +kernel
    · intro m hm _
      simp only [refNames, List.mem_cons, List.not_mem_nil, or_false] at hm
      subst hm
      exact ⟨_, rfl, .inl (.inr rfl)⟩
  · refine ⟨rfl, _, rfl, ?_, ⟨"a".toList, by decide +kernel, by decide +kernel, _, rfl, .inl rfl⟩, ?_⟩
    · intro p hp
      simp only [List.mem_cons, List.not_mem_nil, or_false] at hp
      rcases hp with rfl | rfl | rfl <;> decide +kernel
    · intro m hm _
      simp only [refNames, List.mem_cons, List.not_mem_nil, or_false] at hm
      rcases hm with rfl | rfl
      · exact ⟨_, rfl, .inr ⟨rfl, _, rfl⟩⟩
      · exact ⟨_, rfl, .inl (.inl rfl)⟩

end ML
