import Verif.Mql.Props

/-!
# C65: what a statement that is not well written raises
-/

set_option autoImplicit false

namespace ML
open Spec

namespace Spec

/-- A number and a unit with one blank between them, and blanks around. -/
def IsTime (env : MqlEnv) (s : String) : Prop :=
  ∃ n u, strip s.toList = n ++ ' ' :: u ∧ ' ' ∉ n ∧ ' ' ∉ u ∧ (env.int (String.ofList n)).isSome = true

end Spec

theorem step_within (env : MqlEnv) (st : MqlState) (s : String) (hm : st.mode = .metrics) (h : IsWord s "WITHIN") :
    mqlStep env st (.keyword s) = .ok { st with mode := .within } := by
  have hu : upper s = "WITHIN" := (upper_eq_iff _ _).mpr h
  have hc : isConjunction (.keyword s) = false := isConj_word s _ h (by decide +kernel)
  unfold mqlStep
  rw [if_neg (by rw [hm]; simp)]
  rw [if_pos (by simp [MqlTok.isKeyword, hc])]
  have hmode : resolveMode s st.mode = .within := by unfold resolveMode; rw [hu]; simp
  simp only [MqlTok.text, hmode]
  rw [if_neg (by simp), if_neg (by simp)]
  unfold readToken
  rw [if_neg (by simp)]
  rfl

theorem mqlLoop_error (env : MqlEnv) (st : MqlState) (t : MqlTok) (ts : List MqlTok) (e : Err) (h : mqlStep env st t = .error e) :
    mqlLoop env st (t :: ts) = .error e := by
  show (mqlStep env st t).bind _ = _
  rw [h]; rfl

theorem mql_split_ne (c : Char) (l : List Char) : splitChars c l ≠ [] := by
  cases l with
  | nil => simp [splitChars]
  | cons x l =>
    simp only [splitChars]
    repeat' split
    all_goals simp

theorem mql_split_two (l n u : List Char) (h : splitChars ' ' l = [n, u]) : l = n ++ ' ' :: u ∧ ' ' ∉ n ∧ ' ' ∉ u := by
  by_cases hl : ' ' ∈ l
  · obtain ⟨a, b, rfl, ha⟩ := List.eq_append_cons_of_mem hl
    rw [splitChars_at _ _ _ ha] at h
    by_cases hb : ' ' ∈ b
    · obtain ⟨a', b', rfl, ha'⟩ := List.eq_append_cons_of_mem hb
      rw [splitChars_at _ _ _ ha'] at h
      have := congrArg List.length h
      cases hs : splitChars ' ' b' with
      | nil => exact absurd hs (mql_split_ne _ _)
      | cons x y => rw [hs] at this; simp at this
    · rw [splitChars_none _ _ hb] at h
      simp only [List.cons.injEq, and_true] at h
      obtain ⟨rfl, rfl⟩ := h
      exact ⟨rfl, ha, hb⟩
  · rw [splitChars_none _ _ hl] at h
    simp at h

theorem step_bad_time (env : MqlEnv) (st : MqlState) (time : String) (hm : st.mode = .within) (hf : ¬ IsTrimmedWord time "FUNNEL")
    (ht : ¬ IsTime env time) : mqlStep env st (.name time) = .error .valueError := by
  have hf' : ¬ IsTrimmedWord (MqlTok.name time).text "FUNNEL" := hf
  rw [step_nonkeyword env st (.name time) (by rw [hm]; decide) rfl hf']
  unfold readToken
  rw [if_neg (by rw [hm]; decide)]
  unfold readPlain
  rw [hm]
  show readWithin env st time = _
  unfold readWithin
  split
  · rename_i n u hs
    obtain ⟨e, h1, h2⟩ := mql_split_two _ _ _ hs
    cases hi : env.int (String.ofList n) with
    | none => rfl
    | some v => exact absurd ⟨n, u, e, h1, h2, by rw [hi]; rfl⟩ ht
  · rfl

theorem step_bad_names (env : MqlEnv) (st : MqlState) (text i : String) (is : List String) (hm : st.mode = .within)
    (hf : ¬ IsTrimmedWord text "FUNNEL") : mqlStep env st (.names text (i :: is)) = .error .parse := by
  have hf' : ¬ IsTrimmedWord (MqlTok.names text (i :: is)).text "FUNNEL" := hf
  rw [step_nonkeyword env st (.names text (i :: is)) (by rw [hm]; decide) rfl hf']
  unfold readToken
  rw [if_neg (by rw [hm]; decide)]
  unfold readPlain
  rw [hm]
  show (addByMode st i).bind _ = _
  unfold addByMode
  rw [hm]
  rfl

/-- C65. **What is not well written is refused.** `THEN` before any step of a funnel, a time that is not a number and a unit, and a list
of names where a time should be. The SQL that is empty, and an `MQL(` that is not the call itself, raise too. -/
theorem C65_raises (env : MqlEnv) :
    (∀ metrics s rest, (∀ t ∈ metrics, NameTok false t) → IsWord s "THEN" →
      readMql env (metrics ++ .keyword s :: rest) = .error .unboundLocal) ∧
    (∀ (metrics : List MqlTok) (s : String) (gap : List String) (time : String) (rest : List MqlTok), (∀ t ∈ metrics, NameTok false t) → IsWord s "WITHIN" → (∀ b ∈ gap, IsBlank b) →
      ¬ IsTrimmedWord time "FUNNEL" → ¬ IsTime env time →
      readMql env (metrics ++ .keyword s :: (gap.map .space ++ .name time :: rest)) = .error .valueError) ∧
    (∀ (metrics : List MqlTok) (s : String) (gap : List String) (text i : String) (is : List String) (rest : List MqlTok),
      (∀ t ∈ metrics, NameTok false t) → IsWord s "WITHIN" → (∀ b ∈ gap, IsBlank b) →
      ¬ IsTrimmedWord text "FUNNEL" →
      readMql env (metrics ++ .keyword s :: (gap.map .space ++ .names text (i :: is) :: rest)) = .error .parse) ∧
    convertSql env "" [] = .error .indexError ∧
    (∀ sql before after s, (∀ t ∈ before, Stays t) → ¬ IsWord s "MQL" → containsSub "MQL(".toList (s.toList.map Char.toUpper) = true →
      convertSql env sql (before ++ .ident s .leaf :: after) = .error .typeError) := by
  refine ⟨?_, ?_, ?_, rfl, ?_⟩
  · intro metrics s rest hm h
    have hu : upper s = "THEN" := (upper_eq_iff _ _).mpr h
    have hc : isConjunction (.keyword s) = false := isConj_word s _ h (by decide +kernel)
    unfold readMql
    rw [loop_then _ _ _ _ _ (loop_names_metrics env {} metrics rfl hm), mqlLoop_error _ _ _ _ .unboundLocal]
    · rfl
    · unfold mqlStep
      rw [if_neg (by simp)]
      rw [if_pos (by simp [MqlTok.isKeyword, hc])]
      have hmode : ∀ m, resolveMode s m = .funnel := by intro m; unfold resolveMode; rw [hu]; simp
      simp only [MqlTok.text, hmode]
      rw [if_neg (by simp [hu]), if_neg (by simp)]
      rfl
  · intro metrics s gap time rest hm h hg hf ht
    unfold readMql
    rw [loop_then _ _ _ _ _ (loop_names_metrics env {} metrics rfl hm), loop_cons _ _ _ _ _ (step_within env _ s rfl h),
      loop_then _ _ _ _ _ (loop_blanks env _ gap hg (Or.inr (Or.inr (Or.inl rfl)))), mqlLoop_error _ _ _ _ .valueError (step_bad_time env _ time rfl hf ht)]
    rfl
  · intro metrics s gap text i is rest hm h hg hf
    unfold readMql
    rw [loop_then _ _ _ _ _ (loop_names_metrics env {} metrics rfl hm), loop_cons _ _ _ _ _ (step_within env _ s rfl h),
      loop_then _ _ _ _ _ (loop_blanks env _ gap hg (Or.inr (Or.inr (Or.inl rfl)))), mqlLoop_error _ _ _ _ .parse (step_bad_names env _ text i is rfl hf)]
    rfl
  · intro sql before after s hb hs hc
    have key : ∀ conv, convertAll env sql conv (before ++ .ident s .leaf :: after) = .error .typeError := by
      intro conv
      induction before with
      | nil =>
        show (convertTop env sql conv (.ident s .leaf)).bind _ = _
        simp only [convertTop]
        rw [if_neg (fun e => hs ((upper_eq_iff _ _).mp e))]
        rw [if_pos (by simpa [upper] using hc)]
        rfl
      | cons t ts ih =>
        show (convertTop env sql conv t).bind (fun conv => convertAll env sql conv (ts ++ .ident s .leaf :: after)) = _
        rw [convertTop_stays env sql conv t (hb t (by simp))]
        exact ih (fun u hu => hb u (List.mem_cons_of_mem _ hu))
    unfold convertSql
    rw [key]
    rfl

example : readMql mqlEnv [.name "orders", .space " ", .keyword "THEN"] = .error .unboundLocal := by decide +kernel
example : readMql mqlEnv [.name "orders", .space " ", .keyword "within", .space " ", .name "soon"] = .error .valueError := by decide +kernel

end ML
