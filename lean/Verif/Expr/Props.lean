import Verif.Expr.Spaces
import Verif.Refs.Props
/-
C76: an expression with references means what it means to its author, whatever the SQL of the fields it refers to.
-/
set_option autoImplicit false
namespace ML
open Spec

/-! ### Metrics -/

/-- C76. The SQL of a metric of type number is read by the warehouse as the expression its author wrote, with what each metric named in it computes in the
place of its name: precedence in the SQL of the one never takes the other apart. The SQL of the metrics named may be any text whose strings, parentheses
and CASEs are closed. -/
theorem C76_metric (get : List Char → List Char → Res MetricField) (n : ℕ) (f : MetricField) (ps : List Piece) (hn : f.isNumber = true)
    (hsql : f.sql = render ps) (hps : OrdinaryText ps) (htab : "TABLE".toList ∉ refNames ps) (hview : '{' ∉ f.view) (E : SExp)
    (hE : readPieces ps = some E) (t : List Char → List Char)
    (ht : ∀ m ∈ refNames ps, ∃ g, get f.view m = .ok g ∧ metricSql get n g = .ok (t m) ∧ ClosedText (t m) ∧ '{' ∉ t m) :
    ∃ s, metricSql get (n + 1) f = .ok s ∧ readText s = some (E.subst (fun m => readClosed (t m))) ∧
      (∀ (D : Type) (I : Interp D) (env : List Char → D),
        (E.subst (fun m => readClosed (t m))).value I env = E.value I (fun m => (readClosed (t m)).value I env)) ∧
      ClosedText s ∧ readClosed s = E.subst (fun m => readClosed (t m)) ∧ '{' ∉ s := by
  have hnum := C45_number f.view (fun name => match get f.view name with | .error e => .error e | .ok g => metricSql get n g) ps hps hview t
    (by
      intro m hm _
      obtain ⟨g, h1, h2, _, h4⟩ := ht m hm
      exact ⟨by simp only [h1, h2], h4⟩)
  have hfill : fill (fun m => '(' :: (if m = "TABLE".toList then f.view else t m) ++ [')']) ps = fill (fun m => '(' :: t m ++ [')']) ps :=
    fill_congr ps (fun m hm => by
      have : m ≠ "TABLE".toList := fun e => htab (e ▸ hm)
      simp only [this, if_false])
  rw [hfill] at hnum
  have hread := read_fill ps E hE (fun m => '(' :: t m ++ [')']) (fun m => readClosed (t m)) (fun m hm => by
    obtain ⟨g, _, _, h3, _⟩ := ht m hm
    exact alone_paren h3)
  obtain ⟨hc1, hc2⟩ := closed_of_read hread
  refine ⟨_, ?_, hread, fun D I env => value_subst I env _ E, hc1, hc2, ?_⟩
  · simp only [metricSql, hn, if_true, hsql]
    exact hnum
  · refine fill_no_brace _ ps ((ordinary_iff ps).mp hps) (fun m hm => ?_)
    obtain ⟨g, _, _, _, h4⟩ := ht m hm
    simp [h4]

/-- C76, to any depth: a metric defined by metrics that are defined by metrics computes the composed expression. -/
theorem C76_nested (get : List Char → List Char → Res MetricField) (pieces : MetricField → List Piece)
    (hget : ∀ v m g, get v m = .ok g → OrdinaryNumber pieces g) (n : ℕ) : ∀ (f : MetricField), OrdinaryNumber pieces f → ∀ e,
    metricMeaning get pieces n f = some e →
    ∃ s, metricSql get n f = .ok s ∧ ClosedText s ∧ readClosed s = e ∧ '{' ∉ s ∧ (f.isNumber = true → readText s = some e) := by
  induction n with
  | zero => intro f _ e h; cases h
  | succ n ih =>
    intro f hf e h
    cases hn : f.isNumber with
    | false =>
      simp only [metricMeaning, hn, Bool.false_eq_true, if_false] at h
      cases ha : f.aggregate with
      | error er => rw [ha] at h; cases h
      | ok t =>
        rw [ha] at h
        simp only at h
        split_ifs at h with hc
        refine ⟨t, by simp [metricSql, hn, ha], hc, Option.some.inj h, hf.aggregate t ha, by simp⟩
    | true =>
      simp only [metricMeaning, hn, if_true] at h
      cases hE : readPieces (pieces f) with
      | none => rw [hE] at h; cases h
      | some E =>
        rw [hE] at h
        simp only at h
        split_ifs at h with hall
        obtain ⟨h1, h2, h3⟩ := hf.text hn
        have key : ∀ m, ∃ t, m ∈ refNames (pieces f) → ∃ g, get f.view m = .ok g ∧ metricSql get n g = .ok t ∧ ClosedText t ∧ '{' ∉ t ∧
            metricMeaning get pieces n g = some (readClosed t) := by
          intro m
          by_cases hm : m ∈ refNames (pieces f)
          · have := List.all_eq_true.mp hall m hm
            cases hg : get f.view m with
            | error er => rw [hg] at this; cases this
            | ok g =>
              rw [hg] at this
              simp only at this
              obtain ⟨e', he'⟩ := Option.isSome_iff_exists.mp this
              obtain ⟨s, k1, k2, k3, k4, _⟩ := ih g (hget _ _ _ hg) e' he'
              exact ⟨s, fun _ => ⟨g, rfl, k1, k2, k4, by rw [k3]; exact he'⟩⟩
          · exact ⟨[], fun h => absurd h hm⟩
        choose t ht using key
        obtain ⟨s, k1, k2, _, k4, k5, k6⟩ := C76_metric get n f (pieces f) hn h1 h2 h3 hf.view E hE t (fun m hm => by
          obtain ⟨g, a, b, c, d, _⟩ := ht m hm
          exact ⟨g, a, b, c, d⟩)
        -- both substitutions agree on the names of the text
        have hread2 := read_fill (pieces f) E hE (fun m => '(' :: t m ++ [')'])
          (fun m => (match get f.view m with | .error _ => none | .ok g => metricMeaning get pieces n g : Option SExp).getD .nil) (fun m hm => by
            obtain ⟨g, a, _, c, _, d⟩ := ht m hm
            rw [alone_paren c]
            simp only [a, d, Option.getD_some])
        have hread1 := read_fill (pieces f) E hE (fun m => '(' :: t m ++ [')']) (fun m => readClosed (t m)) (fun m hm => by
          obtain ⟨g, _, _, c, _, _⟩ := ht m hm
          exact alone_paren c)
        have heq : E.subst (fun m => readClosed (t m)) = e := by
          rw [hread1] at hread2
          exact (Option.some.inj hread2).trans (Option.some.inj h)
        exact ⟨s, k1, k4, by rw [k5, heq], k6, fun _ => by rw [k2, heq]⟩

/-! ### Dimensions -/

theorem fill_withView (view : List Char) (v : List Char → List Char) (ps : List Piece) (h : v "TABLE".toList = view) :
    fill v ps = fill v (withView view ps) := by
  induction ps with
  | nil => rfl
  | cons p ps ih =>
    simp only [withView, List.map_cons] at ih ⊢
    split_ifs with hp
    · subst hp
      simp only [fill, h, ih]
    · cases p with
      | lit l => simp only [fill, ih]
      | ref n => simp only [fill, ih]

theorem refs_withView (view : List Char) (ps : List Piece) (n : List Char) (h : n ∈ refNames (withView view ps)) :
    n ∈ refNames ps ∧ n ≠ "TABLE".toList := by
  induction ps with
  | nil => cases h
  | cons p ps ih =>
    simp only [withView, List.map_cons] at ih h
    split_ifs at h with hp
    · subst hp
      simp only [refNames] at h
      exact ⟨by simp [refNames, (ih h).1], (ih h).2⟩
    · cases p with
      | lit l => exact ih h
      | ref m =>
        simp only [refNames, List.mem_cons] at h
        rcases h with rfl | h
        · exact ⟨by simp [refNames], fun e => hp (by rw [e])⟩
        · exact ⟨by simp [refNames, (ih h).1], (ih h).2⟩

/-- C76, for dimensions and the SQL inside aggregates, where references are replaced without parentheses: the SQL is read as the expression its author wrote
if the SQL of every field named in it is one operand (a column, a number, a string, a call, a CASE or something in parentheses). -/
theorem C76_dimension_partial (get : List Char → List Char → Res RField) (pieces : RField → List Piece)
    (hget : ∀ v m g, get v m = .ok g → OrdinaryField pieces g) (n : ℕ) (f : RField) (hf : OrdinaryField pieces f) (hnum : f.isNumber = false)
    (hsql : f.sql = some (render (pieces f))) (hw : f.wrap = id) (E : SExp) (hE : readPieces (withView f.view (pieces f)) = some E)
    (t : List Char → List Char) (σ : List Char → SExp)
    (ht : ∀ m ∈ refNames (pieces f), m ≠ "TABLE".toList → ∃ g, get f.view m = .ok g ∧ rawSql get n g = .ok (t m) ∧ aloneText (t m) = some (σ m) ∧
      TightStrings (exprTokens (t m)))
    (htight : TightStrings (pieceTokens .idle (withView f.view (pieces f)))) :
    ∃ s, rawSql get (n + 1) f = .ok s ∧ readText s = some (E.subst σ) ∧
      ∀ (D : Type) (I : Interp D) (env : List Char → D), (E.subst σ).value I env = E.value I (fun m => (σ m).value I env) := by
  let v : List Char → List Char := fun m => if m = "TABLE".toList then f.view else t m
  have hvT : v "TABLE".toList = f.view := if_pos rfl
  have hfill : fill v (pieces f) = fill v (withView f.view (pieces f)) := fill_withView f.view v (pieces f) hvT
  have hv : ∀ m ∈ refNames (withView f.view (pieces f)), aloneText (v m) = some (σ m) ∧ TightStrings (exprTokens (v m)) := by
    intro m hm
    obtain ⟨h1, h2⟩ := refs_withView _ _ _ hm
    obtain ⟨g, _, _, h5, h6⟩ := ht m h1 h2
    have : v m = t m := if_neg h2
    rw [this]
    exact ⟨h5, h6⟩
  have hread := read_fill _ E hE v σ (fun m hm => (hv m hm).1)
  obtain ⟨is, hp⟩ : ∃ is, readParts [] [] [] (pieceTokens .idle (withView f.view (pieces f))) = some is := by
    unfold readPieces readTokens at hE
    cases hp : readParts [] [] [] (pieceTokens .idle (withView f.view (pieces f))) with
    | none => rw [hp] at hE; cases hE
    | some is => exact ⟨is, rfl⟩
  obtain ⟨J, hJ, hparts, htok⟩ := parts_fill _ is hp v σ (fun m hm => (hv m hm).1)
  have hbad : ETok.bad ∉ exprTokens (fill v (withView f.view (pieces f))) := read_noBad _ _ _ _ _ hparts
  have hT : TightStrings (exprTokens (fill v (withView f.view (pieces f)))) := by
    intro s hs
    rw [htok, List.mem_flatMap] at hs
    obtain ⟨tok, h1, h2⟩ := hs
    cases tok with
    | ref m => exact (hv m (ref_pieces _ _ _ h1)).2 s h2
    | str s' =>
      simp only [expandTok, List.mem_singleton, ETok.str.injEq] at h2
      subst h2
      exact htight _ h1
    | _ => simp [expandTok] at h2
  have hlast : exprTokens (collapseSpaces false (strip (fill v (pieces f)))) = exprTokens (fill v (pieces f)) := by
    rw [hfill]
    rw [tokens_collapse (by rw [tokens_strip hbad]; exact hbad) (by rw [tokens_strip hbad]; exact hT), tokens_strip hbad]
  have hexp : expansion get pieces (n + 1) f = some (collapseSpaces false (strip (fill v (pieces f)))) := by
    have hne : (render (pieces f)).isEmpty = false := by
      cases hr : pieces f with
      | nil =>
        exfalso
        rw [hr] at hE
        revert hE
        simp [withView, readPieces, pieceTokens, readTokens, readParts, LexSt.flush]
      | cons p ps =>
        by_contra hne
        simp only [Bool.not_eq_false, List.isEmpty_iff] at hne
        -- an empty text has no parts
        have hemp : ∀ qs : List Piece, render qs = [] → refNames qs = [] ∧ ∀ w, fill w qs = [] := by
          intro qs
          induction qs with
          | nil => intro _; exact ⟨rfl, fun _ => rfl⟩
          | cons q qs ihq =>
            intro hq
            cases q with
            | lit l =>
              simp only [render, List.append_eq_nil_iff] at hq
              obtain ⟨a, b⟩ := ihq hq.2
              exact ⟨a, fun w => by simp [fill, hq.1, b w]⟩
            | ref m => simp [render] at hq
        rw [← hr] at hne
        have hz := (hemp _ hne).2 v
        rw [← hfill, hz] at hread
        revert hread
        simp [readText, readTokens, exprTokens, lexRun, LexSt.flush, readParts]
    have hval : ∀ m ∈ refNames (pieces f), (if m = "TABLE".toList then some f.view
        else match get f.view m with
          | .error _ => none
          | .ok g => expansion get pieces n g) = some (v m) := by
      intro m hm
      by_cases hmt : m = "TABLE".toList
      · rw [if_pos hmt, hmt, hvT]
      · rw [if_neg hmt]
        obtain ⟨g, h1, h2, _, _⟩ := ht m hm hmt
        rw [h1]
        simp only
        have := C45_expanded_partial get pieces hget n g (hget _ _ _ h1)
        rw [h2] at this
        rw [← this]
        have : v m = t m := if_neg hmt
        rw [this]
        rfl
    have hany : (refNames (pieces f)).any (fun m => (if m = "TABLE".toList then some f.view
        else match get f.view m with
          | .error _ => none
          | .ok g => expansion get pieces n g : Option (List Char)).isNone) = false := by
      rw [List.any_eq_false]
      intro m hm
      rw [hval m hm]
      simp
    simp only [expansion]
    rw [hnum, hsql, hne]
    simp only [Option.isNone_some, Bool.false_or]
    erw [hany]
    simp only [Bool.false_eq_true, if_false, hw, id_eq]
    refine congrArg (fun x => some (collapseSpaces false (strip x))) (fill_congr _ (fun m hm => ?_))
    have := hval m hm
    erw [this]
    rfl
  refine ⟨collapseSpaces false (strip (fill v (pieces f))), ?_, ?_, fun D I env => value_subst I env σ E⟩
  · have := C45_expanded_partial get pieces hget (n + 1) f hf
    rw [hexp] at this
    cases hr : rawSql get (n + 1) f with
    | error e => rw [hr] at this; cases this
    | ok s =>
      rw [hr] at this
      cases this
      rfl
  · unfold readText
    rw [hlast, hfill]
    exact hread

end ML
