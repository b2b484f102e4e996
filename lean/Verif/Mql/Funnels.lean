import Verif.Mql.Lemmas

set_option autoImplicit false

namespace ML
open Spec

theorem toUpper_list_W (l : List Char) : (l.map Char.toUpper).length = l.length := by simp

/-- The text before the first occurrence of the word. -/
theorem beforeWord_none (l : List Char) (h : containsSub "WITHIN".toList (l.map Char.toUpper) = false) :
    beforeWord "WITHIN".toList l = none := by
  induction l with
  | nil => rfl
  | cons c l ih =>
    rw [List.map_cons] at h
    simp only [containsSub, Bool.or_eq_false_iff] at h
    unfold beforeWord
    rw [List.map_cons, h.1, ih h.2]
    rfl

theorem no_overlap (x y : List Char) (hx : x ≠ []) (hn : containsSub "WITHIN".toList x = false) :
    "WITHIN".toList.isPrefixOf (x ++ ("WITHIN".toList ++ y)) = false := by
  match x, hx, hn with
  | [], hx, _ => exact absurd rfl hx
  | [a], _, _ => simp [List.isPrefixOf]
  | [a, b], _, _ => simp [List.isPrefixOf]
  | [a, b, c], _, _ => simp [List.isPrefixOf]
  | [a, b, c, d], _, _ => simp [List.isPrefixOf]
  | [a, b, c, d, e], _, _ => simp [List.isPrefixOf]
  | a :: b :: c :: d :: e :: f :: r, _, hn =>
    simp only [containsSub, Bool.or_eq_false_iff] at hn
    have := hn.1
    simp [List.isPrefixOf] at this ⊢
    exact this

theorem beforeWord_some (a w r : List Char) (hw : w.map Char.toUpper = "WITHIN".toList)
    (h : containsSub "WITHIN".toList (a.map Char.toUpper) = false) : beforeWord "WITHIN".toList (a ++ (w ++ r)) = some a := by
  induction a with
  | nil =>
    cases w with
    | nil => simp at hw
    | cons c w =>
      rw [List.nil_append, List.cons_append]
      unfold beforeWord
      rw [if_pos]
      rw [← List.cons_append, List.map_append, hw]
      simp [List.isPrefixOf]
  | cons c a ih =>
    rw [List.cons_append]
    unfold beforeWord
    have h2 := h
    rw [List.map_cons] at h2
    simp only [containsSub, Bool.or_eq_false_iff] at h2
    rw [if_neg, ih h2.2]
    · rfl
    · rw [← List.cons_append, List.map_append, List.map_append, hw,
        no_overlap _ _ (by simp) (by rw [List.map_cons]; rw [List.map_cons] at h; exact h)]
      decide

theorem step_stepTok (env : MqlEnv) (st : MqlState) (t : MqlTok) (step : List String) (hm : st.mode = .funnel) (hs : st.step = some step)
    (h : StepTok t) : mqlStep env st t = .ok { st with step := some (step ++ [t.text]) } := by
  obtain ⟨hf, hth, hw, hk⟩ := h
  have hr : readToken env st t = .ok { st with step := some (step ++ [t.text]) } := by
    unfold readToken readStep
    rw [if_pos hm, hs]
    simp only
    rw [if_neg (fun e => hth ((upper_eq_iff _ _).mp e)), beforeWord_none _ hw]
  have hnf : st.mode ≠ .for_ := by rw [hm]; decide
  by_cases hkw : t.isKeyword = true
  · cases t with
    | keyword s =>
      unfold mqlStep
      rw [if_neg (fun e => hnf e.1)]
      have hc : isConjunction (.keyword s) = true := by
        unfold isConjunction upper stripText MqlTok.text
        simp only [String.toList_ofList]
        rcases hk s rfl with e | e <;> (rw [e]; simp)
      rw [hc]
      simp only [Bool.not_true, Bool.and_false, Bool.false_eq_true, if_false]
      exact hr
    | _ => simp [MqlTok.isKeyword] at hkw
  · rw [step_nonkeyword env st t hnf (by simpa using hkw) hf]
    exact hr

theorem loop_stepToks (env : MqlEnv) (st : MqlState) (ts : List MqlTok) (step : List String) (hm : st.mode = .funnel) (hs : st.step = some step)
    (h : ∀ t ∈ ts, StepTok t) : mqlLoop env st ts = .ok { st with step := some (step ++ ts.map MqlTok.text) } := by
  induction ts generalizing st step with
  | nil => simp [mqlLoop, ← hs]
  | cons t ts ih =>
    rw [loop_cons _ _ _ _ _ (step_stepTok env st t step hm hs (h t (by simp))),
      ih _ (step ++ [t.text]) (by exact hm) rfl (fun x hx => h x (List.mem_cons_of_mem _ hx))]
    simp

theorem step_for (env : MqlEnv) (st : MqlState) (s : String) (hm : st.mode = .metrics) (h : IsWord s "FOR") :
    mqlStep env st (.keyword s) = .ok { st with mode := .for_ } := by
  have hu : upper s = "FOR" := (upper_eq_iff s _).mpr h
  have hc := isConj_word s "FOR" h (by decide +kernel)
  have hr : resolveMode s st.mode = .for_ := by unfold resolveMode; rw [hu]; rfl
  unfold mqlStep
  rw [if_neg (by rw [hm]; simp), hc]
  simp only [MqlTok.isKeyword, Bool.true_or, Bool.not_false, Bool.and_self, if_true, MqlTok.text, hr, hu]
  rw [if_neg (by decide), if_neg (by decide)]
  simp [readToken, readPlain]

theorem step_then (env : MqlEnv) (st : MqlState) (s : String) (step : List String) (hm : st.mode = .funnel) (hs : st.step = some step)
    (h : IsWord s "THEN") : mqlStep env st (.keyword s) = .ok { st with steps := st.steps ++ [step], step := some [] } := by
  have hu : upper s = "THEN" := (upper_eq_iff s _).mpr h
  have hc := isConj_word s "THEN" h (by decide +kernel)
  have hr : resolveMode s st.mode = .funnel := by unfold resolveMode; rw [hu]; rfl
  unfold mqlStep
  rw [if_neg (by rw [hm]; simp), hc]
  simp only [MqlTok.isKeyword, Bool.true_or, Bool.not_false, Bool.and_self, if_true, MqlTok.text, hr, hu]
  rw [if_neg (by simp), if_neg (by decide)]
  simp [readToken, readStep, hs, MqlTok.text, hu, ← hm]

theorem step_funnelWord (env : MqlEnv) (st : MqlState) (t : MqlTok) (hm : st.mode = .funnel) (h : IsWord t.text "FUNNEL") :
    mqlStep env st t = .ok { st with step := some [] } := by
  have hu : upper t.text = "FUNNEL" := (upper_eq_iff _ _).mpr h
  have hf : isFunnelWord t = true := by
    rw [isFunnelWord_iff]
    unfold IsTrimmedWord
    rw [h]
    decide +kernel
  have hc : isConjunction t = false := by
    exact isConj_word t.text "FUNNEL" h (by decide +kernel)
  have hr : resolveMode t.text st.mode = .funnel := by unfold resolveMode; rw [hu]; rfl
  unfold mqlStep
  rw [if_neg (by rw [hm]; simp), hc, hf]
  simp only [Bool.or_true, Bool.not_false, Bool.and_self, if_true, hr, hu]
  rw [if_pos (by decide), ← hm]

theorem splitChars_none (c : Char) (l : List Char) (h : c ∉ l) : splitChars c l = [l] := by
  induction l with
  | nil => rfl
  | cons x l ih =>
    simp only [List.mem_cons, not_or] at h
    unfold splitChars
    rw [if_neg (Ne.symm h.1), ih h.2]

theorem splitChars_at (c : Char) (a b : List Char) (h : c ∉ a) : splitChars c (a ++ c :: b) = a :: splitChars c b := by
  induction a with
  | nil => simp [splitChars]
  | cons x a ih =>
    simp only [List.mem_cons, not_or] at h
    rw [List.cons_append]
    show (if x = c then _ else match splitChars c (a ++ c :: b) with | [] => [[x]] | p :: ps => (x :: p) :: ps) = _
    rw [if_neg (Ne.symm h.1), ih h.2]

theorem strip_tight (l : List Char) (h : ∀ c ∈ l, isSpace c = false) : strip l = l := by
  have hd : ∀ l : List Char, (∀ c ∈ l, isSpace c = false) → l.dropWhile isSpace = l := by
    intro l h
    cases l with
    | nil => rfl
    | cons c l => rw [List.dropWhile_cons, if_neg (by rw [h c (by simp)]; decide)]
  unfold strip
  rw [hd l h, hd l.reverse (fun c hc => h c (List.mem_reverse.mp hc)), List.reverse_reverse]

theorem step_view (env : MqlEnv) (st : MqlState) (t : MqlTok) (v : String) (hm : st.mode = .for_) (hb : t.isBlank = false)
    (ht : t.text = v ∨ ∃ al, t.text = v ++ " " ++ al) (hv : ∀ c ∈ v.toList, isSpace c = false ∧ isSpace c.toLower = false) :
    mqlStep env st t = .ok { st with funnelFor := some (lower v), mode := .funnel, step := some [] } := by
  have hns : ' ' ∉ v.toList := fun hc => by have := (hv _ hc).1; revert this; decide
  have hh : (splitChars ' ' t.text.toList).headD [] = v.toList := by
    rcases ht with e | ⟨al, e⟩
    · rw [e, splitChars_none _ _ hns]; rfl
    · rw [e]
      have : (v ++ " " ++ al).toList = v.toList ++ ' ' :: al.toList := by simp
      rw [this, splitChars_at _ _ _ hns]; rfl
  unfold mqlStep
  rw [if_pos ⟨hm, hb⟩, hh]
  have : stripText (lower (String.ofList v.toList)) = lower v := by
    unfold stripText lower
    simp only [String.toList_ofList]
    rw [strip_tight]
    intro c hc
    obtain ⟨d, hd, rfl⟩ := List.mem_map.mp hc
    exact (hv d hd).2
  rw [this]

theorem step_last (env : MqlEnv) (st : MqlState) (t : MqlTok) (step : List String) (before : String) (hm : st.mode = .funnel)
    (hs : st.step = some step) (hk : t.isKeyword = false)
    (ht : ∃ word rest, t.text = before ++ word ++ rest ∧ IsWord word "WITHIN")
    (ho : containsSub "WITHIN".toList (before.toList.map Char.toUpper) = false) :
    mqlStep env st t = .ok { st with
      steps := st.steps ++ [step ++ [trimmed before]], step := some (step ++ [trimmed before]), mode := .within } := by
  obtain ⟨word, rest, ht, hw⟩ := ht
  have hl : t.text.toList = before.toList ++ (word.toList ++ rest.toList) := by rw [ht]; simp
  have hmem : 'W' ∈ t.text.toList.map Char.toUpper := by
    rw [hl, List.map_append, List.map_append, hw]; simp
  have hf : ¬ IsTrimmedWord t.text "FUNNEL" := by
    intro hf
    unfold IsTrimmedWord at hf
    have := mem_strip_of _ _ hmem (by decide)
    rw [hf] at this
    revert this; decide +kernel
  have hth : upper t.text ≠ "THEN" := by
    intro e
    have e : t.text.toList.map Char.toUpper = "THEN".toList := (upper_eq_iff _ _).mp e
    rw [e] at hmem
    revert hmem; decide +kernel
  rw [step_nonkeyword env st t (by rw [hm]; decide) hk hf]
  unfold readToken readStep
  rw [if_pos hm, hs]
  simp only
  rw [if_neg hth, hl, beforeWord_some _ _ _ hw ho]
  rfl

theorem step_time (env : MqlEnv) (st : MqlState) (time number unit : String) (value : Int) (hm : st.mode = .within)
    (ht : strip time.toList = number.toList ++ ' ' :: unit.toList) (hn : ' ' ∉ number.toList) (hu : ' ' ∉ unit.toList)
    (hv : env.int number = some value) :
    mqlStep env st (.name time) = .ok { st with within := some (value, lower unit), mode := .metrics } := by
  have hf : ¬ IsTrimmedWord (MqlTok.name time).text "FUNNEL" := by
    intro hf
    unfold IsTrimmedWord at hf
    rw [strip_map_upper] at hf
    have hm : ' ' ∈ (strip (MqlTok.name time).text.toList).map Char.toUpper := by
      rw [List.mem_map]
      refine ⟨' ', ?_, by decide⟩
      show ' ' ∈ strip time.toList
      rw [ht]; simp
    rw [hf] at hm
    revert hm; decide +kernel
  rw [step_nonkeyword env st (.name time) (by rw [hm]; decide) rfl hf]
  unfold readToken
  rw [if_neg (by rw [hm]; decide)]
  unfold readPlain
  rw [hm]
  show readWithin env st time = _
  unfold readWithin
  rw [ht, splitChars_at _ _ _ hn, splitChars_none _ _ hu]
  simp only [String.ofList_toList, hv]

/-- The texts of the steps, as the loop collects them. -/
def stepLists (first : List MqlTok) (more : List (List MqlTok)) (lastText : String) : List (List String) :=
  match more with
  | [] => [first.map MqlTok.text ++ [trimmed lastText]]
  | next :: more => first.map MqlTok.text :: stepLists next more lastText

theorem stepLists_texts (first : List MqlTok) (more : List (List MqlTok)) (lastText : String) :
    (stepLists first more lastText).map (fun s => stripText (joinTexts s)) = stepTexts first more lastText := by
  induction more generalizing first with
  | nil => rfl
  | cons next more ih =>
    unfold stepLists stepTexts
    rw [List.map_cons, ih]
    rfl

theorem loop_steps (env : MqlEnv) (st : MqlState) (first : List MqlTok) (more : List (String × List MqlTok)) (last : MqlTok) (lastText : String)
    (hm : st.mode = .funnel) (hs : st.step = some [])
    (h1 : ∀ t ∈ first, StepTok t) (h2 : ∀ p ∈ more, IsWord p.1 "THEN" ∧ ∀ t ∈ p.2, StepTok t) (hk : last.isKeyword = false)
    (ht : ∃ word rest, last.text = lastText ++ word ++ rest ∧ IsWord word "WITHIN")
    (ho : containsSub "WITHIN".toList (lastText.toList.map Char.toUpper) = false) :
    ∃ sp, mqlLoop env st (first ++ ((more.flatMap fun p => MqlTok.keyword p.1 :: p.2) ++ [last])) =
      .ok { st with steps := st.steps ++ stepLists first (more.map (·.2)) lastText, step := sp, mode := .within } := by
  induction more generalizing st first with
  | nil =>
    refine ⟨some (first.map MqlTok.text ++ [trimmed lastText]), ?_⟩
    rw [List.flatMap_nil, List.nil_append, loop_then env st _ _ _ (loop_stepToks env st first [] hm hs h1), List.nil_append,
      loop_cons _ _ _ _ _ (step_last env _ last (first.map MqlTok.text) lastText (by exact hm) rfl hk ht ho)]
    rfl
  | cons p more ih =>
    have e1 := loop_stepToks env st first [] hm hs h1
    rw [loop_then env st _ _ _ e1, List.flatMap_cons, List.cons_append, List.cons_append,
      loop_cons _ _ _ _ _ (step_then env _ p.1 (first.map MqlTok.text) (by exact hm) rfl (h2 p (by simp)).1), List.append_assoc]
    obtain ⟨sp, e2⟩ := ih { st with step := some [], steps := st.steps ++ [first.map MqlTok.text] } p.2 hm rfl (h2 p (by simp)).2
      (fun q hq => h2 q (List.mem_cons_of_mem _ hq))
    refine ⟨sp, ?_⟩
    refine e2.trans ?_
    simp [stepLists]

theorem loop_funnel (env : MqlEnv) (st : MqlState) (f : WrittenFunnel) (hf : f.Ok env) (hm : st.mode = .metrics) :
    ∃ sp, mqlLoop env st f.tokens = .ok { st with
      funnelFor := some (lower f.viewName), step := sp, steps := st.steps ++ stepLists f.first (f.more.map (·.2)) f.lastText,
      within := some (f.value, lower f.unit) } := by
  unfold WrittenFunnel.tokens
  rw [List.cons_append, loop_cons _ _ _ _ _ (step_for env st _ hm hf.forWord),
    loop_then env _ _ _ _ (loop_blanks env _ f.gap hf.gaps.1 (by simp)),
    loop_cons _ _ _ _ _ (step_view env _ f.view f.viewName rfl hf.view hf.viewText hf.viewName.2)]
  have e1 : mqlLoop env { st with funnelFor := some (lower f.viewName), mode := .funnel, step := some [] }
      (openTokens f.funnelWord) =
      .ok { st with funnelFor := some (lower f.viewName), mode := .funnel, step := some [] } := by
    cases hw : f.funnelWord with
    | none => rfl
    | some p =>
      obtain ⟨lead, w⟩ := p
      obtain ⟨h1, h2⟩ := hf.funnelWord lead w hw
      unfold openTokens
      rw [loop_then env _ _ _ _ (loop_stepToks env _ lead [] rfl rfl h1), loop_cons _ _ _ _ _ (step_funnelWord env _ w rfl h2)]
      rfl
  rw [loop_then env _ _ _ _ e1]
  obtain ⟨sp, e2⟩ := loop_steps env { st with funnelFor := some (lower f.viewName), mode := .funnel, step := some [] }
    f.first f.more f.last f.lastText rfl rfl hf.first hf.more hf.last hf.lastText hf.lastOnce
  refine ⟨sp, ?_⟩
  have es : f.first ++ ((f.more.flatMap fun p => MqlTok.keyword p.1 :: p.2) ++
      f.last :: (f.gap'.map .space ++ .name f.time :: f.after.map .space)) =
      (f.first ++ ((f.more.flatMap fun p => MqlTok.keyword p.1 :: p.2) ++ [f.last])) ++
        (f.gap'.map .space ++ .name f.time :: f.after.map .space) := by simp
  rw [es, loop_then env _ _ _ _ e2, loop_then env _ _ _ _ (loop_blanks env _ f.gap' hf.gaps.2.1 (by simp)),
    loop_cons _ _ _ _ _ (step_time env _ f.time f.number f.unit f.value rfl hf.time hf.words.1 hf.words.2 hf.value),
    loop_blanks env _ f.after hf.gaps.2.2 (by simp)]
  simp [hm]

end ML
