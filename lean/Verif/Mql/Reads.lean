import Verif.Mql.Replace

set_option autoImplicit false

namespace ML
open Spec

/-- The state after a condition (a name for the proofs). -/
def withWhere (st : MqlState) : Option (String × List String × List String) → MqlState
  | none => st
  | some (k, texts, _) => { st with where_ := k :: texts }

theorem loop_where (env : MqlEnv) (st : MqlState) (w : Option (String × List String × List String)) (hm : st.mode = .metrics ∨ st.mode = .dimensions)
    (h : ∀ k texts blanks, w = some (k, texts, blanks) → IsWord k "WHERE" ∧ ∀ s ∈ blanks, IsBlank s) :
    mqlLoop env st (whereTokens w) = .ok (withWhere st w) := by
  cases w with
  | none => rfl
  | some p =>
    obtain ⟨k, texts, blanks⟩ := p
    obtain ⟨h1, h2⟩ := h k texts blanks rfl
    unfold whereTokens
    simp only
    rw [loop_cons _ _ _ _ _ (step_where env st k texts hm h1)]
    refine loop_blanks env _ blanks h2 ?_
    rcases hm with h | h
    · exact Or.inl h
    · exact Or.inr (Or.inl h)

/-- Everything after the metrics and the funnel. -/
theorem loop_rest (env : MqlEnv) (w : WrittenMql) (h : w.Ok env) (st : MqlState) (hm : st.mode = .metrics)
    (h0 : st.dimensions = [] ∧ st.where_ = [] ∧ st.having = [] ∧ st.orderBy = []) :
    ∃ st', mqlLoop env st (partTokens w.by_ ++ (whereTokens w.where_ ++ (partTokens w.having ++ partTokens w.order))) = .ok st' ∧
      st'.metrics = st.metrics ∧ st'.dimensions = w.meaning.dimensions ∧ funnelOf st' = funnelOf st ∧
      tokensToSql (st'.where_.drop 1) = w.meaning.where_ ∧ tokensToSql (st'.having.drop 1) = w.meaning.having ∧
      tokensToSql (st'.orderBy.drop 1) = w.meaning.orderBy := by
  obtain ⟨hd, hw, hh, ho⟩ := h0
  have hct : ∀ l : List String, tokensToSql l = clauseText l := by
    intro l
    unfold tokensToSql clauseText
    cases l <;> rfl
  -- BY
  obtain ⟨s1, e1, m1, a1, d1, f1, w1, h1, o1⟩ : ∃ s1, mqlLoop env st (partTokens w.by_) = .ok s1 ∧
      (s1.mode = .metrics ∨ s1.mode = .dimensions) ∧ s1.metrics = st.metrics ∧ s1.dimensions = w.meaning.dimensions ∧
      funnelOf s1 = funnelOf st ∧ s1.where_ = [] ∧ s1.having = [] ∧ s1.orderBy = [] := by
    cases hb : w.by_ with
    | none => exact ⟨st, rfl, Or.inl hm, rfl, by simp [WrittenMql.meaning, hb, hd], rfl, hw, hh, ho⟩
    | some p =>
      obtain ⟨b, ts⟩ := p
      obtain ⟨h1, h2⟩ := h.by_ b ts hb
      exact ⟨_, (loop_cons _ _ _ _ _ (step_by env st b hm h1)).trans (loop_names_dimensions env _ ts rfl h2), Or.inr rfl, rfl, by simp [WrittenMql.meaning, hb, hd], rfl, hw, hh, ho⟩
  -- WHERE
  obtain ⟨s2, e2, m2, a2, d2, f2, w2, h2, o2⟩ : ∃ s2, mqlLoop env s1 (whereTokens w.where_) = .ok s2 ∧
      (s2.mode = .metrics ∨ s2.mode = .dimensions) ∧ s2.metrics = st.metrics ∧ s2.dimensions = w.meaning.dimensions ∧
      funnelOf s2 = funnelOf st ∧ tokensToSql (s2.where_.drop 1) = w.meaning.where_ ∧ s2.having = [] ∧ s2.orderBy = [] := by
    refine ⟨_, loop_where env s1 w.where_ m1 h.where_, ?_⟩
    cases hwh : w.where_ with
    | none => exact ⟨m1, a1, d1, f1, by simp [WrittenMql.meaning, hwh, w1, tokensToSql, withWhere], h1, o1⟩
    | some p =>
      obtain ⟨k, texts, blanks⟩ := p
      exact ⟨m1, a1, d1, f1, by simp [WrittenMql.meaning, hwh, hct, withWhere], h1, o1⟩
  -- HAVING
  obtain ⟨s3, e3, m3, a3, d3, f3, w3, h3, o3⟩ : ∃ s3, mqlLoop env s2 (partTokens w.having) = .ok s3 ∧
      (s3.mode = .metrics ∨ s3.mode = .dimensions ∨ s3.mode = .having) ∧ s3.metrics = st.metrics ∧
      s3.dimensions = w.meaning.dimensions ∧ funnelOf s3 = funnelOf st ∧ tokensToSql (s3.where_.drop 1) = w.meaning.where_ ∧
      tokensToSql (s3.having.drop 1) = w.meaning.having ∧ s3.orderBy = [] := by
    cases hb : w.having with
    | none =>
      exact ⟨s2, rfl, m2.imp id Or.inl, a2, d2, f2, w2, by simp [WrittenMql.meaning, hb, h2, tokensToSql], o2⟩
    | some p =>
      obtain ⟨b, ts⟩ := p
      obtain ⟨k1, k2⟩ := h.having b ts hb
      exact ⟨_, (loop_cons _ _ _ _ _ (step_having env s2 b m2 k1)).trans (loop_having env _ ts rfl k2), Or.inr (Or.inr rfl), a2, d2, f2, w2, by simp [WrittenMql.meaning, hb, h2, hct], o2⟩
  -- ORDER BY
  obtain ⟨s4, e4, a4, d4, f4, w4, h4, o4⟩ : ∃ s4, mqlLoop env s3 (partTokens w.order) = .ok s4 ∧ s4.metrics = st.metrics ∧
      s4.dimensions = w.meaning.dimensions ∧ funnelOf s4 = funnelOf st ∧ tokensToSql (s4.where_.drop 1) = w.meaning.where_ ∧
      tokensToSql (s4.having.drop 1) = w.meaning.having ∧ tokensToSql (s4.orderBy.drop 1) = w.meaning.orderBy := by
    cases hb : w.order with
    | none => exact ⟨s3, rfl, a3, d3, f3, w3, h3, by simp [WrittenMql.meaning, hb, o3, tokensToSql]⟩
    | some p =>
      obtain ⟨b, ts⟩ := p
      obtain ⟨k1, k2⟩ := h.order b ts hb
      exact ⟨_, (loop_cons _ _ _ _ _ (step_order env s3 b m3 k1)).trans (loop_order env _ ts rfl k2), a3, d3, f3, w3, h3, by simp [WrittenMql.meaning, hb, o3, hct]⟩
  refine ⟨s4, ?_, a4, d4, f4, w4, h4, o4⟩
  rw [loop_then _ _ _ _ _ e1, loop_then _ _ _ _ _ e2, loop_then _ _ _ _ _ e3, e4]

/-- A keyword that begins no part changes nothing where names are read. -/
theorem step_keyword_ignored (env : MqlEnv) (st : MqlState) (s : String) (hm : st.mode = .metrics ∨ st.mode = .dimensions)
    (h : ∀ w ∈ partWords, ¬ IsWord s w) (hs : ¬ IsWord s "SOURCE") : mqlStep env st (.keyword s) = .ok st := by
  have hnf : st.mode ≠ .for_ ∧ st.mode ≠ .funnel := by rcases hm with h | h <;> rw [h] <;> decide
  have hr := resolveMode_other s st.mode h
  have hrd : readToken env st (.keyword s) = .ok st := by
    unfold readToken readPlain
    rcases hm with h | h <;> simp [h]
  unfold mqlStep
  rw [if_neg (fun hh => hnf.1 hh.1)]
  split
  · simp only [MqlTok.text, hr]
    rw [if_neg (fun hh => hnf.2 hh.1), if_neg (fun hh => hs ((upper_eq_iff _ _).mp hh.2))]
    exact hrd
  · exact hrd

/-- A keyword that begins no part, in a step of a funnel, forgets what the step had. -/
theorem step_keyword_forgets (env : MqlEnv) (st : MqlState) (s : String) (hm : st.mode = .funnel)
    (h : ∀ w ∈ partWords, ¬ IsWord s w)
    (hc : (strip s.toList).map Char.toUpper ≠ "AND".toList ∧ (strip s.toList).map Char.toUpper ≠ "OR".toList) :
    mqlStep env st (.keyword s) = .ok { st with step := some [] } := by
  have hr := resolveMode_other s MqlMode.funnel h
  have hcj : isConjunction (.keyword s) = false := by
    unfold isConjunction upper stripText MqlTok.text
    simp only [String.toList_ofList, Bool.or_eq_false_iff, decide_eq_false_iff_not]
    refine ⟨fun e => hc.1 ?_, fun e => hc.2 ?_⟩ <;> (have := congrArg String.toList e; simpa using this)
  unfold mqlStep
  rw [if_neg (by rw [hm]; simp), hcj]
  simp only [MqlTok.isKeyword, Bool.true_or, Bool.not_false, Bool.and_self, if_true, MqlTok.text, hm, hr]
  rw [if_pos ⟨trivial, fun e => h "THEN" (by decide) ((upper_eq_iff _ _).mp e)⟩]

end ML
