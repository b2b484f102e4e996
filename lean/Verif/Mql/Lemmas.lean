import Verif.Mql.Spec
import Verif.Refs.Lemmas
import Verif.MergePlan.Texts
import Mathlib.Tactic.IntervalCases

set_option autoImplicit false

namespace ML
open Spec

theorem upper_eq_iff (s w : String) : upper s = w ↔ IsWord s w := by
  unfold upper IsWord
  constructor
  · rintro rfl; simp
  · intro h; rw [h]; simp

theorem toUpper_space (c : Char) : isSpace c.toUpper = isSpace c := by
  by_cases h : 'a' ≤ c ∧ c ≤ 'z'
  · have h1 : isSpace c = false := by
      unfold isSpace
      have : c ≠ ' ' ∧ c ≠ '\t' ∧ c ≠ '\n' ∧ c ≠ '\r' := by
        refine ⟨?_, ?_, ?_, ?_⟩ <;> (rintro rfl; revert h; decide)
      simp [this]
    rw [h1]
    have a : 97 ≤ c.toNat := h.1
    have b : c.toNat ≤ 122 := h.2
    have hc : c = Char.ofNat c.toNat := by simp
    rw [hc]
    revert a b
    generalize c.toNat = n
    intro a b
    interval_cases n <;> decide +kernel
  · have : c.toUpper = c := by
      unfold Char.toUpper
      rw [dif_neg]
      intro hh
      exact h ⟨hh.1, hh.2⟩
    rw [this]

theorem dropWhile_map_upper (l : List Char) : (l.map Char.toUpper).dropWhile isSpace = (l.dropWhile isSpace).map Char.toUpper := by
  induction l with
  | nil => rfl
  | cons c l ih =>
    simp only [List.map_cons, List.dropWhile_cons, toUpper_space]
    cases isSpace c <;> simp [ih]

theorem strip_map_upper (l : List Char) : strip (l.map Char.toUpper) = (strip l).map Char.toUpper := by
  unfold strip
  rw [dropWhile_map_upper, ← List.map_reverse, dropWhile_map_upper, ← List.map_reverse]

theorem isFunnelWord_iff (t : MqlTok) : isFunnelWord t = true ↔ IsTrimmedWord t.text "FUNNEL" := by
  unfold isFunnelWord IsTrimmedWord stripText upper
  simp only [String.toList_ofList, decide_eq_true_eq]
  constructor
  · intro h; have := congrArg String.toList h; simpa using this
  · intro h; rw [h]; simp

theorem isFunnelWord_false (t : MqlTok) (h : ¬ IsTrimmedWord t.text "FUNNEL") : isFunnelWord t = false := by
  cases hc : isFunnelWord t with
  | false => rfl
  | true => exact absurd ((isFunnelWord_iff t).mp hc) h

theorem mem_strip_of (l : List Char) (c : Char) (h : c ∈ l) (hs : isSpace c = false) : c ∈ strip l := by
  have hd : ∀ (l : List Char), c ∈ l → c ∈ l.dropWhile isSpace := by
    intro l
    induction l with
    | nil => simp
    | cons d l ih =>
      intro h
      rw [List.dropWhile_cons]
      rcases List.mem_cons.mp h with rfl | h
      · simp [hs]
      · split
        · exact ih h
        · exact List.mem_cons_of_mem _ h
  unfold strip
  rw [List.mem_reverse]
  apply hd
  rw [List.mem_reverse]
  exact hd l h

theorem strip_blank (l : List Char) (h : ∀ c ∈ l, isSpace c = true) : strip l = [] := by
  unfold strip
  have : l.dropWhile isSpace = [] := by
    induction l with
    | nil => rfl
    | cons c l ih => rw [List.dropWhile_cons, if_pos (h c (by simp))]; exact ih (fun d hd => h d (List.mem_cons_of_mem _ hd))
  rw [this]
  rfl

theorem mem_of_strip (l : List Char) (c : Char) (h : c ∈ strip l) : c ∈ l := by
  unfold strip at h
  rw [List.mem_reverse] at h
  have := List.dropWhile_sublist (p := isSpace) |>.mem h
  rw [List.mem_reverse] at this
  exact List.dropWhile_sublist (p := isSpace) |>.mem this

theorem blank_not_funnel (s : String) (h : IsBlank s) : ¬ IsTrimmedWord s "FUNNEL" := by
  intro hf
  unfold IsTrimmedWord at hf
  rw [strip_map_upper, strip_blank _ h] at hf
  simp at hf

theorem where_not_funnel (k : String) (texts : List String) (h : IsWord k "WHERE") : ¬ IsTrimmedWord (joinTexts (k :: texts)) "FUNNEL" := by
  intro hf
  unfold IsTrimmedWord joinTexts at hf
  have hm : 'W' ∈ strip ((String.ofList ((k :: texts).flatMap String.toList)).toList.map Char.toUpper) := by
    apply mem_strip_of _ _ _ (by decide)
    rw [String.toList_ofList, List.flatMap_cons, List.map_append, h]
    simp
  rw [hf] at hm
  revert hm; decide +kernel

/-! ### The loop -/

theorem loop_append (env : MqlEnv) (st : MqlState) (a b : List MqlTok) :
    mqlLoop env st (a ++ b) = (mqlLoop env st a).bind (fun st => mqlLoop env st b) := by
  induction a generalizing st with
  | nil => rfl
  | cons t a ih =>
    rw [List.cons_append]
    have e : ∀ l, mqlLoop env st (t :: l) = (mqlStep env st t).bind (fun st => mqlLoop env st l) := fun _ => rfl
    rw [e, e]
    cases mqlStep env st t with
    | error x => rfl
    | ok s => exact ih s

theorem loop_cons (env : MqlEnv) (st st' : MqlState) (t : MqlTok) (l : List MqlTok) (h : mqlStep env st t = .ok st') :
    mqlLoop env st (t :: l) = mqlLoop env st' l := by
  show (mqlStep env st t).bind (fun st => mqlLoop env st l) = _
  rw [h]; rfl

theorem loop_then (env : MqlEnv) (st st' : MqlState) (a b : List MqlTok) (h : mqlLoop env st a = .ok st') :
    mqlLoop env st (a ++ b) = mqlLoop env st' b := by
  rw [loop_append, h]; rfl

/-- A token that is not a keyword, outside `FOR`, is read by the rest of the loop body. -/
theorem step_nonkeyword (env : MqlEnv) (st : MqlState) (t : MqlTok) (hm : st.mode ≠ .for_) (hk : t.isKeyword = false)
    (hf : ¬ IsTrimmedWord t.text "FUNNEL") : mqlStep env st t = readToken env st t := by
  unfold mqlStep
  rw [if_neg (fun h => hm h.1), hk, isFunnelWord_false t hf]
  rfl

theorem step_blank (env : MqlEnv) (st : MqlState) (s : String) (hb : IsBlank s)
    (hm : st.mode = .metrics ∨ st.mode = .dimensions ∨ st.mode = .within ∨ st.mode = .for_) : mqlStep env st (.space s) = .ok st := by
  unfold mqlStep
  rw [if_neg (by simp [MqlTok.isBlank])]
  rw [show isFunnelWord (.space s) = false from isFunnelWord_false _ (blank_not_funnel s hb)]
  simp only [MqlTok.isKeyword, Bool.or_self, Bool.false_and, Bool.false_eq_true, if_false]
  unfold readToken readPlain
  rcases hm with h | h | h | h <;> simp [h]

theorem loop_blanks (env : MqlEnv) (st : MqlState) (l : List String) (hb : ∀ s ∈ l, IsBlank s)
    (hm : st.mode = .metrics ∨ st.mode = .dimensions ∨ st.mode = .within ∨ st.mode = .for_) : mqlLoop env st (l.map .space) = .ok st := by
  induction l with
  | nil => rfl
  | cons s l ih =>
    rw [List.map_cons, loop_cons env st st _ _ (step_blank env st s (hb s (by simp)) hm)]
    exact ih (fun t ht => hb t (List.mem_cons_of_mem _ ht))

theorem addAll_metrics (st : MqlState) (ids : List String) (hm : st.mode = .metrics) :
    addAll st ids = .ok { st with metrics := st.metrics ++ ids } := by
  induction ids generalizing st with
  | nil => simp [addAll]
  | cons i ids ih =>
    have e : addByMode st i = .ok { st with metrics := st.metrics ++ [i] } := by unfold addByMode; rw [hm]
    show (addByMode st i).bind (fun st => addAll st ids) = _
    rw [e]
    show addAll _ ids = _
    rw [ih _ (by exact hm)]
    simp

theorem addAll_dimensions (st : MqlState) (ids : List String) (hm : st.mode = .dimensions) :
    addAll st ids = .ok { st with dimensions := st.dimensions ++ ids } := by
  induction ids generalizing st with
  | nil => simp [addAll]
  | cons i ids ih =>
    have e : addByMode st i = .ok { st with dimensions := st.dimensions ++ [i] } := by unfold addByMode; rw [hm]
    show (addByMode st i).bind (fun st => addAll st ids) = _
    rw [e]
    show addAll _ ids = _
    rw [ih _ (by exact hm)]
    simp

theorem namesIn_cons (t : MqlTok) (ts : List MqlTok) : namesIn (t :: ts) = namesIn [t] ++ namesIn ts := by
  simp [namesIn]

theorem step_name_metrics (env : MqlEnv) (st : MqlState) (t : MqlTok) (hm : st.mode = .metrics) (h : NameTok false t) :
    mqlStep env st t = .ok { st with metrics := st.metrics ++ namesIn [t] } := by
  cases t with
  | space s => rw [step_blank env st s h (Or.inl hm)]; simp [namesIn]
  | other s =>
    rw [step_nonkeyword env st (.other s) (by rw [hm]; decide) rfl (show ¬ IsTrimmedWord s "FUNNEL" from h)]
    unfold readToken readPlain
    simp [hm, namesIn]
    rw [← hm]
  | name s =>
    rw [step_nonkeyword env st (.name s) (by rw [hm]; decide) rfl (show ¬ IsTrimmedWord s "FUNNEL" from h)]
    have hf := isFunnelWord_false (.name s) (show ¬ IsTrimmedWord s "FUNNEL" from h)
    unfold readToken readPlain
    simp [hm, namesIn, hf, addByMode]
  | names s ids =>
    rw [step_nonkeyword env st (.names s ids) (by rw [hm]; decide) rfl (show ¬ IsTrimmedWord s "FUNNEL" from h)]
    unfold readToken readPlain
    simp [hm, namesIn, addAll_metrics]
  | keyword s => exact absurd h.1 (by decide)
  | where_ a b => exact h.elim

theorem loop_names_metrics (env : MqlEnv) (st : MqlState) (ts : List MqlTok) (hm : st.mode = .metrics) (h : ∀ t ∈ ts, NameTok false t) :
    mqlLoop env st ts = .ok { st with metrics := st.metrics ++ namesIn ts } := by
  induction ts generalizing st with
  | nil => simp [mqlLoop, namesIn]
  | cons t ts ih =>
    rw [loop_cons _ _ _ _ _ (step_name_metrics env st t hm (h t (by simp))), ih _ (by exact hm) (fun x hx => h x (List.mem_cons_of_mem _ hx)),
      namesIn_cons t ts]
    simp

theorem isWord_ne (s a b : String) (h : IsWord s a) (hne : a ≠ b) : upper s ≠ b := by
  rw [(upper_eq_iff s a).mpr h]; exact hne

theorem isConj_word (s : String) (w : String) (h : IsWord s w) (hw : strip w.toList ≠ "AND".toList ∧ strip w.toList ≠ "OR".toList) :
    isConjunction (.keyword s) = false := by
  unfold isConjunction
  have e : upper (stripText (MqlTok.keyword s).text) = String.ofList (strip w.toList) := by
    unfold upper stripText MqlTok.text
    rw [String.toList_ofList, ← strip_map_upper, h]
  rw [e]
  simp only [Bool.or_eq_false_iff, decide_eq_false_iff_not]
  refine ⟨fun hh => hw.1 ?_, fun hh => hw.2 ?_⟩ <;> (rw [← hh]; simp)

theorem step_name_dimensions (env : MqlEnv) (st : MqlState) (t : MqlTok) (hm : st.mode = .dimensions) (h : NameTok true t) :
    mqlStep env st t = .ok { st with dimensions := st.dimensions ++ namesIn [t] } := by
  cases t with
  | space s => rw [step_blank env st s h (Or.inr (Or.inl hm))]; simp [namesIn]
  | other s =>
    rw [step_nonkeyword env st (.other s) (by rw [hm]; decide) rfl (show ¬ IsTrimmedWord s "FUNNEL" from h)]
    unfold readToken readPlain
    simp [hm, namesIn]
    rw [← hm]
  | name s =>
    rw [step_nonkeyword env st (.name s) (by rw [hm]; decide) rfl (show ¬ IsTrimmedWord s "FUNNEL" from h)]
    have hf := isFunnelWord_false (.name s) (show ¬ IsTrimmedWord s "FUNNEL" from h)
    unfold readToken readPlain
    simp [hm, namesIn, hf, addByMode]
  | names s ids =>
    rw [step_nonkeyword env st (.names s ids) (by rw [hm]; decide) rfl (show ¬ IsTrimmedWord s "FUNNEL" from h)]
    unfold readToken readPlain
    simp [hm, namesIn, addAll_dimensions]
  | keyword s =>
    have hu : upper s = "SOURCE" := (upper_eq_iff s _).mpr h.2
    have hc := isConj_word s "SOURCE" h.2 (by decide +kernel)
    have hr : resolveMode s st.mode = .dimensions := by
      unfold resolveMode
      rw [hu, hm]
      rfl
    unfold mqlStep
    rw [if_neg (by rw [hm]; simp), hc]
    simp only [MqlTok.isKeyword, Bool.true_or, Bool.not_false, Bool.and_self, if_true, MqlTok.text, hr, hu]
    rw [if_neg (by decide), if_pos (by simp)]
    simp [namesIn, hm, addByMode, readToken, readPlain, Except.bind, bind]
  | where_ a b => exact h.elim

theorem loop_names_dimensions (env : MqlEnv) (st : MqlState) (ts : List MqlTok) (hm : st.mode = .dimensions) (h : ∀ t ∈ ts, NameTok true t) :
    mqlLoop env st ts = .ok { st with dimensions := st.dimensions ++ namesIn ts } := by
  induction ts generalizing st with
  | nil => simp [mqlLoop, namesIn]
  | cons t ts ih =>
    rw [loop_cons _ _ _ _ _ (step_name_dimensions env st t hm (h t (by simp))), ih _ (by exact hm) (fun x hx => h x (List.mem_cons_of_mem _ hx)),
      namesIn_cons t ts]
    simp

/-! ### The words that begin a part -/

theorem step_by (env : MqlEnv) (st : MqlState) (s : String) (hm : st.mode = .metrics) (h : IsWord s "BY") :
    mqlStep env st (.keyword s) = .ok { st with mode := .dimensions } := by
  have hu : upper s = "BY" := (upper_eq_iff s _).mpr h
  have hc := isConj_word s "BY" h (by decide +kernel)
  have hr : resolveMode s st.mode = .dimensions := by unfold resolveMode; rw [hu]; rfl
  unfold mqlStep
  rw [if_neg (by rw [hm]; simp), hc]
  simp only [MqlTok.isKeyword, Bool.true_or, Bool.not_false, Bool.and_self, if_true, MqlTok.text, hr, hu]
  rw [if_neg (by decide), if_neg (by decide)]
  simp [readToken, readPlain]

theorem step_having (env : MqlEnv) (st : MqlState) (s : String) (hm : st.mode = .metrics ∨ st.mode = .dimensions) (h : IsWord s "HAVING") :
    mqlStep env st (.keyword s) = .ok { st with mode := .having, having := st.having ++ [s] } := by
  have hu : upper s = "HAVING" := (upper_eq_iff s _).mpr h
  have hc := isConj_word s "HAVING" h (by decide +kernel)
  have hr : resolveMode s st.mode = .having := by unfold resolveMode; rw [hu]; rfl
  unfold mqlStep
  rw [if_neg (by rcases hm with h | h <;> rw [h] <;> simp), hc]
  simp only [MqlTok.isKeyword, Bool.true_or, Bool.not_false, Bool.and_self, if_true, MqlTok.text, hr, hu]
  rw [if_neg (by decide), if_neg (by decide)]
  simp [readToken, readPlain, MqlTok.text]

theorem step_order (env : MqlEnv) (st : MqlState) (s : String) (hm : st.mode = .metrics ∨ st.mode = .dimensions ∨ st.mode = .having)
    (h : IsWord s "ORDER BY") : mqlStep env st (.keyword s) = .ok { st with mode := .orderBy, orderBy := st.orderBy ++ [s] } := by
  have hu : upper s = "ORDER BY" := (upper_eq_iff s _).mpr h
  have hc := isConj_word s "ORDER BY" h (by decide +kernel)
  have hr : resolveMode s st.mode = .orderBy := by unfold resolveMode; rw [hu]; rfl
  unfold mqlStep
  rw [if_neg (by rcases hm with h | h | h <;> rw [h] <;> simp), hc]
  simp only [MqlTok.isKeyword, Bool.true_or, Bool.not_false, Bool.and_self, if_true, MqlTok.text, hr, hu]
  rw [if_neg (by decide), if_neg (by decide)]
  simp [readToken, readPlain, MqlTok.text]

theorem resolveMode_other (s : String) (m : MqlMode) (h : ∀ w ∈ partWords, ¬ IsWord s w) : resolveMode s m = m := by
  have hn : ∀ w ∈ partWords, upper s ≠ w := fun w hw e => h w hw ((upper_eq_iff s w).mp e)
  unfold resolveMode
  rw [if_neg (hn _ (by decide)), if_neg (hn _ (by decide)), if_neg (hn _ (by decide)), if_neg (hn _ (by decide)),
    if_neg (not_or.mpr ⟨hn _ (by decide), hn _ (by decide)⟩), if_neg (hn _ (by decide))]

theorem step_clause (env : MqlEnv) (st : MqlState) (t : MqlTok) (hm : st.mode = .having ∨ st.mode = .orderBy) (h : ClauseTok t) :
    mqlStep env st t = readToken env st t := by
  have hnf : st.mode ≠ .for_ ∧ st.mode ≠ .funnel ∧ st.mode ≠ .dimensions := by rcases hm with h | h <;> rw [h] <;> decide
  by_cases hk : t.isKeyword = true
  · cases t with
    | keyword s =>
      unfold mqlStep
      rw [if_neg (fun hh => hnf.1 hh.1)]
      have hr := resolveMode_other s st.mode (h.2 s rfl)
      split
      · simp only [MqlTok.text, hr]
        rw [if_neg (fun hh => hnf.2.1 hh.1), if_neg (fun hh => hnf.2.2 hh.1)]
      · rfl
    | _ => simp [MqlTok.isKeyword] at hk
  · exact step_nonkeyword env st t hnf.1 (by simpa using hk) h.1

theorem loop_having (env : MqlEnv) (st : MqlState) (ts : List MqlTok) (hm : st.mode = .having) (h : ∀ t ∈ ts, ClauseTok t) :
    mqlLoop env st ts = .ok { st with having := st.having ++ ts.map MqlTok.text } := by
  induction ts generalizing st with
  | nil => simp [mqlLoop]
  | cons t ts ih =>
    have e : mqlStep env st t = .ok { st with having := st.having ++ [t.text] } := by
      rw [step_clause env st t (Or.inl hm) (h t (by simp))]
      unfold readToken readPlain
      rw [hm]
      simp
    rw [loop_cons _ _ _ _ _ e, ih _ (by exact hm) (fun x hx => h x (List.mem_cons_of_mem _ hx))]
    simp

theorem loop_order (env : MqlEnv) (st : MqlState) (ts : List MqlTok) (hm : st.mode = .orderBy) (h : ∀ t ∈ ts, ClauseTok t) :
    mqlLoop env st ts = .ok { st with orderBy := st.orderBy ++ ts.map MqlTok.text } := by
  induction ts generalizing st with
  | nil => simp [mqlLoop]
  | cons t ts ih =>
    have e : mqlStep env st t = .ok { st with orderBy := st.orderBy ++ [t.text] } := by
      rw [step_clause env st t (Or.inr hm) (h t (by simp))]
      unfold readToken readPlain
      rw [hm]
      simp
    rw [loop_cons _ _ _ _ _ e, ih _ (by exact hm) (fun x hx => h x (List.mem_cons_of_mem _ hx))]
    simp

theorem step_where (env : MqlEnv) (st : MqlState) (k : String) (texts : List String) (hm : st.mode = .metrics ∨ st.mode = .dimensions)
    (h : IsWord k "WHERE") : mqlStep env st (.where_ k texts) = .ok { st with where_ := k :: texts } := by
  have hf : ¬ IsTrimmedWord (MqlTok.where_ k texts).text "FUNNEL" := where_not_funnel k texts h
  rw [step_nonkeyword env st (.where_ k texts) (by rcases hm with h | h <;> rw [h] <;> decide) rfl hf]
  unfold readToken readPlain
  rcases hm with h | h <;> simp [h]

end ML
