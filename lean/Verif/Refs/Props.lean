import Verif.Refs.Lemmas
/- C45: expanding `${field}` references. -/
set_option autoImplicit false
namespace ML
open Spec

instance goodPieceDecidable (p : Piece) : Decidable (GoodPiece p) :=
  match p with
  | .lit l => inferInstanceAs (Decidable ('{' ∉ l))
  | .ref n => inferInstanceAs (Decidable (∀ c ∈ n, c ∉ ['$', '{', '}', '%', '\n']))

theorem replaceEach_ok (value : List Char → Res (List Char)) (v : List Char → List Char) (ns : List (List Char)) :
    ∀ ps : List Piece, (∀ p ∈ ps, GoodPiece p) → (∀ n ∈ ns, GoodName n ∧ value n = .ok (v n) ∧ '{' ∉ v n) →
    replaceEach value ns (render ps) = .ok (render (ps.map (appPiece (fun m => some (.lit (v m))) ns))) := by
  induction ns with
  | nil =>
    intro ps _ _
    have : ps.map (appPiece (fun m => some (.lit (v m))) []) = ps := by
      conv_rhs => rw [← List.map_id ps]
      apply List.map_congr_left
      intro p _
      cases p <;> simp [appPiece]
    rw [this]; rfl
  | cons n ns ih =>
    intro ps hps hns
    obtain ⟨hg, hv, ho⟩ := hns n (by simp)
    have hr := replace_render n (.lit (v n)) ps hg hps
    have hone : render [Piece.lit (v n)] = v n := by simp [render]
    rw [hone] at hr
    simp only [replaceEach, hv]
    rw [hr, ih _ ?_ (fun m hm => hns m (List.mem_cons_of_mem _ hm)), List.map_map]
    · congr 2
      apply List.map_congr_left
      intro p _
      exact app_cons (fun m => some (.lit (v m))) n ns p (fun m k hk => by injection hk with hk; cases hk)
    · intro p hp
      obtain ⟨p', hp', rfl⟩ := List.mem_map.mp hp
      unfold substPiece
      split
      · exact ho
      · exact hps p' hp'

theorem replaceEach_error (value : List Char → Res (List Char)) (ns : List (List Char)) (text : List Char) (n : List Char) (e : Err)
    (hn : n ∈ ns) (he : value n = .error e) : ∃ e', replaceEach value ns text = .error e' := by
  induction ns generalizing text with
  | nil => cases hn
  | cons m ms ih =>
    simp only [replaceEach]
    cases hm : value m with
    | error e' => exact ⟨e', rfl⟩
    | ok v =>
      simp only
      rcases List.mem_cons.mp hn with rfl | hn
      · rw [he] at hm; cases hm
      · exact ih _ hn

theorem fill_app (v : List Char → List Char) (ps : List Piece) (ns : List (List Char)) (h : ∀ n ∈ refNames ps, n ∈ ns) :
    render (ps.map (appPiece (fun m => some (.lit (v m))) ns)) = fill v ps := by
  induction ps with
  | nil => rfl
  | cons p ps ih =>
    cases p with
    | lit l => simp only [List.map_cons, appPiece, render, fill, ih h]
    | ref n =>
      simp only [List.map_cons, appPiece, h n (by simp [refNames]), if_true, Option.getD_some, render, fill,
        ih (fun m hm => h m (by simp [refNames, hm]))]

theorem refNames_good (ps : List Piece) (h : ∀ p ∈ ps, GoodPiece p) : ∀ n ∈ refNames ps, GoodName n := by
  induction ps with
  | nil => intro n hn; cases hn
  | cons p ps ih =>
    intro n hn
    cases p with
    | lit l => exact ih (fun q hq => h q (List.mem_cons_of_mem _ hq)) n hn
    | ref m =>
      rcases List.mem_cons.mp hn with rfl | hn
      · exact h (.ref n) (by simp)
      · exact ih (fun q hq => h q (List.mem_cons_of_mem _ hq)) n hn

theorem fill_no_brace (v : List Char → List Char) (ps : List Piece) (h : ∀ p ∈ ps, GoodPiece p)
    (hv : ∀ n ∈ refNames ps, '{' ∉ v n) : '{' ∉ fill v ps := by
  induction ps with
  | nil => simp [fill]
  | cons p ps ih =>
    cases p with
    | lit l =>
      simp only [fill, List.mem_append, not_or]
      exact ⟨h (.lit l) (by simp), ih (fun q hq => h q (List.mem_cons_of_mem _ hq)) hv⟩
    | ref n =>
      simp only [fill, List.mem_append, not_or]
      exact ⟨hv n (by simp [refNames]), ih (fun q hq => h q (List.mem_cons_of_mem _ hq)) (fun m hm => hv m (by simp [refNames, hm]))⟩

/-- The expansion of the model and the specified one agree, and contain no brace. -/
theorem rawSql_expansion (get : List Char → List Char → Res RField) (pieces : RField → List Piece)
    (hget : ∀ v m g, get v m = .ok g → OrdinaryField pieces g) (n : ℕ) : ∀ f, OrdinaryField pieces f →
    (rawSql get n f).toOption = expansion get pieces n f ∧ ∀ t, expansion get pieces n f = some t → '{' ∉ t := by
  induction n with
  | zero => intro f _; exact ⟨rfl, fun t ht => by cases ht⟩
  | succ n ih =>
    intro f hf
    set value : List Char → Res (List Char) := fun name =>
      if name = "TABLE".toList then .ok f.view
      else match get f.view name with
        | .error e => .error e
        | .ok g => rawSql get n g with hvalue
    set value' : List Char → Option (List Char) := fun name =>
      if name = "TABLE".toList then some f.view
      else match get f.view name with
        | .error _ => none
        | .ok g => expansion get pieces n g with hvalue'
    have hvv : ∀ m, (value m).toOption = value' m := by
      intro m
      rw [hvalue, hvalue']
      simp only
      split
      · rfl
      · cases hg : get f.view m with
        | error e => rfl
        | ok g => exact (ih g (hget _ _ _ hg)).1
    have hbr : ∀ m t, value' m = some t → '{' ∉ t := by
      intro m t
      rw [hvalue']
      simp only
      split
      · intro h; injection h with h; subst h; exact hf.view
      · cases hg : get f.view m with
        | error e => intro h; cases h
        | ok g => exact (ih g (hget _ _ _ hg)).2 t
    have hexp : expansion get pieces (n + 1) f =
        if f.isNumber || f.sql.isNone || (render (pieces f)).isEmpty || (refNames (pieces f)).any (fun m => (value' m).isNone) then none
        else some (f.wrap (collapseSpaces false (strip (fill (fun m => (value' m).getD []) (pieces f))))) := rfl
    have hraw : rawSql get (n + 1) f =
        (if f.isNumber then .error .query
        else
          match f.sql with
          | none => .error .query
          | some t =>
            if t = [] ∨ containsSub "{%".toList t = true then .error .typeError
            else
              match replaceEach value (fieldsToReplace t) t with
              | .error e => .error e
              | .ok r => .ok (f.wrap (collapseSpaces false (strip r)))) := rfl
    rw [hexp, hraw]
    cases hnum : f.isNumber with
    | true => simp only [if_true, Bool.true_or]; exact ⟨rfl, fun t ht => by cases ht⟩
    | false =>
      cases hsql : f.sql with
      | none => simp only [Bool.false_eq_true, if_false, Option.isNone_none, Bool.or_true, Bool.true_or, if_true]; exact ⟨rfl, fun t ht => by cases ht⟩
      | some t =>
        obtain ⟨rfl, hord⟩ := hf.text t hsql
        rw [ordinary_iff] at hord
        simp only [Bool.false_eq_true, if_false, Option.isNone_some, Bool.false_or, no_template _ hord, or_false]
        cases hemp : render (pieces f) with
        | nil => simp only [if_true, List.isEmpty_nil, Bool.true_or]; exact ⟨rfl, fun t ht => by cases ht⟩
        | cons c cs =>
          rw [← hemp]
          simp only [hemp, reduceCtorEq, if_false, List.isEmpty_cons, Bool.false_or]
          rw [← hemp, fieldsToReplace_render _ hord]
          have hgn := refNames_good _ hord
          cases hany : (refNames (pieces f)).any (fun m => (value' m).isNone) with
          | true =>
            simp only [if_true]
            refine ⟨?_, fun t ht => by cases ht⟩
            obtain ⟨m, hm, hmn⟩ := List.any_eq_true.mp hany
            rw [Option.isNone_iff_eq_none, ← hvv] at hmn
            cases hvm : value m with
            | ok v => rw [hvm] at hmn; cases hmn
            | error e =>
              obtain ⟨e', he'⟩ := replaceEach_error value _ (render (pieces f)) m e hm hvm
              rw [he']; rfl
          | false =>
            simp only [Bool.false_eq_true, if_false]
            have hall : ∀ m ∈ refNames (pieces f), GoodName m ∧ value m = .ok ((value' m).getD []) ∧ '{' ∉ (value' m).getD [] := by
              intro m hm
              have h1 := List.any_eq_false.mp hany m hm
              simp only [Option.isNone_iff_eq_none] at h1
              cases hv' : value' m with
              | none => exact absurd hv' h1
              | some w =>
                refine ⟨hgn m hm, ?_, hbr m w hv'⟩
                have := hvv m
                rw [hv'] at this
                cases hvm : value m with
                | error e => rw [hvm] at this; cases this
                | ok w' => rw [hvm] at this; injection this with this; rw [← this]; rfl
            have hrep := replaceEach_ok value (fun m => (value' m).getD []) (refNames (pieces f)) (pieces f) hord hall
            rw [fill_app _ _ _ (fun n hn => hn)] at hrep
            rw [hrep]
            refine ⟨rfl, ?_⟩
            intro t ht
            injection ht with ht
            subst ht
            apply hf.wrap
            intro hc
            exact fill_no_brace _ _ hord (fun m hm => (hall m hm).2.2) (strip_subset _ _ (collapse_subset _ _ _ hc))

/-- C45, for ordinary texts: the SQL of a field is the specified expansion, at every depth of references: each reference is
replaced by the SQL of the field it names and `${TABLE}` by the view, all other text is kept up to outer white space and runs of
spaces; and it fails exactly when a reference leads nowhere. Missing: runs of spaces are changed even inside quotes
(`C45_spaces`), and texts with other braces. -/
theorem C45_expanded_partial (get : List Char → List Char → Res RField) (pieces : RField → List Piece)
    (hget : ∀ v m g, get v m = .ok g → OrdinaryField pieces g) (n : ℕ) (f : RField) (hf : OrdinaryField pieces f) :
    (rawSql get n f).toOption = expansion get pieces n f :=
  (rawSql_expansion get pieces hget n f hf).1

/-- C45: no reference is left in the SQL of a field. -/
theorem C45_no_reference_left (get : List Char → List Char → Res RField) (pieces : RField → List Piece)
    (hget : ∀ v m g, get v m = .ok g → OrdinaryField pieces g) (n : ℕ) (f : RField) (hf : OrdinaryField pieces f) (t : List Char)
    (h : rawSql get n f = .ok t) : fieldsToReplace t = [] ∧ ¬ "${".toList <:+: t := by
  obtain ⟨h1, h2⟩ := rawSql_expansion get pieces hget n f hf
  rw [h] at h1
  have hb := h2 t h1.symm
  constructor
  · have := fieldsToReplace_render [.lit t] (by intro p hp; simp only [List.mem_singleton] at hp; subst hp; exact hb)
    simpa [render, refNames] using this
  · intro hi
    exact hb (hi.subset (by decide))

/-- C45: the SQL of a measure of type number is its text with each reference replaced by the parenthesised aggregate of the measure
it names. `${TABLE}` also gets parentheses. -/
theorem C45_number (view : List Char) (agg : List Char → Res (List Char)) (ps : List Piece) (hps : OrdinaryText ps) (hview : '{' ∉ view)
    (v : List Char → List Char) (hv : ∀ m ∈ refNames ps, m ≠ "TABLE".toList → agg m = .ok (v m) ∧ '{' ∉ v m) :
    numberSql view agg (render ps) =
      .ok (fill (fun m => '(' :: (if m = "TABLE".toList then view else v m) ++ [')']) ps) := by
  rw [ordinary_iff] at hps
  unfold numberSql
  rw [fieldsToReplace_render _ hps, replaceEach_ok _ (fun m => '(' :: (if m = "TABLE".toList then view else v m) ++ [')']) _ _ hps,
    fill_app _ _ _ (fun n hn => hn)]
  intro m hm
  refine ⟨refNames_good _ hps m hm, ?_, ?_⟩
  · by_cases ht : m = "TABLE".toList
    · simp only [ht, if_true]
    · simp only [ht, if_false, (hv m hm ht).1]
  · by_cases ht : m = "TABLE".toList
    · simp only [ht, if_true, List.cons_append, List.mem_cons, List.mem_append, not_or]
      exact ⟨by decide, hview, by decide, by simp⟩
    · simp only [ht, if_false, List.cons_append, List.mem_cons, List.mem_append, not_or]
      exact ⟨by decide, (hv m hm ht).2, by decide, by simp⟩

/-! ### Join clauses -/

theorem table_no_dot : '.' ∉ "TABLE".toList := by decide

theorem joinFold (view : List Char) (hview : GoodName view) (ns : List (List Char)) : ∀ ps : List Piece, (∀ p ∈ ps, GoodPiece p) →
    (∀ n ∈ ns, GoodName n) →
    ns.foldl (clauseStep view) (render ps) = render (ps.map (appPiece (fun m => if m = "TABLE".toList then some (.lit view)
      else if '.' ∈ m then none else some (.ref (view ++ '.' :: m))) ns)) := by
  induction ns with
  | nil =>
    intro ps _ _
    have : ps.map (appPiece (fun m => if m = "TABLE".toList then some (.lit view)
      else if '.' ∈ m then none else some (.ref (view ++ '.' :: m))) []) = ps := by
      conv_rhs => rw [← List.map_id ps]
      apply List.map_congr_left
      intro p _
      cases p <;> simp [appPiece]
    rw [this]; rfl
  | cons n ns ih =>
    intro ps hps hns
    set f : List Char → Option Piece := fun m => if m = "TABLE".toList then some (.lit view)
      else if '.' ∈ m then none else some (.ref (view ++ '.' :: m)) with hf
    have hn := hns n (by simp)
    have hstep : clauseStep view (render ps) n = render (ps.map (substPiece n ((f n).getD (.ref n)))) := by
      unfold clauseStep
      simp only
      by_cases ht : n = "TABLE".toList
      · subst ht
        simp only [hf, ne_eq, not_true_eq_false, false_and, if_false, if_true, Option.getD_some]
        have := replace_render "TABLE".toList (.lit view) ps hn hps
        have hone : render [Piece.lit view] = view := by simp [render]
        rw [hone] at this
        exact this
      · by_cases hd : '.' ∈ n
        · simp only [hf, ht, hd, if_true, if_false, not_true_eq_false, and_false, Option.getD_none]
          have : ps.map (substPiece n (.ref n)) = ps := by
            conv_rhs => rw [← List.map_id ps]
            apply List.map_congr_left
            intro p _
            unfold substPiece
            split
            · rename_i h; rw [h]; rfl
            · rfl
          rw [this]
        · simp only [hf, ht, hd, if_false, ne_eq, not_false_eq_true, and_self, if_true, Option.getD_some]
          have := replace_render n (.ref (view ++ '.' :: n)) ps hn hps
          have hone : render [Piece.ref (view ++ '.' :: n)] = refText (view ++ '.' :: n) := by simp [render, refText]
          rw [hone] at this
          exact this
    rw [List.foldl_cons, hstep, ih _ ?_ (fun m hm => hns m (List.mem_cons_of_mem _ hm)), List.map_map]
    · congr 1
      apply List.map_congr_left
      intro p _
      refine app_cons f n ns p ?_
      intro m k hk
      rw [hf] at hk ⊢
      simp only at hk ⊢
      split at hk
      · injection hk with hk; cases hk
      · split at hk
        · cases hk
        · injection hk with hk
          injection hk with hk
          subst hk
          have hdot : '.' ∈ view ++ '.' :: m := by simp
          have hne : view ++ '.' :: m ≠ "TABLE".toList := by
            intro e; rw [e] at hdot; exact table_no_dot hdot
          rw [if_neg hne, if_pos hdot]
    · intro p hp
      obtain ⟨p', hp', rfl⟩ := List.mem_map.mp hp
      unfold substPiece
      split
      · rw [hf]
        simp only
        split
        · exact good_open hview
        · split
          · exact hn
          · intro c hc
            rw [List.mem_append, List.mem_cons] at hc
            rcases hc with hc | rfl | hc
            · exact hview c hc
            · decide
            · exact hn c hc
      · exact hps p' hp'

/-- C45: in the SQL of a join identifier every bare name is qualified with the view, `${TABLE}` becomes the view, and everything
else is kept. -/
theorem C45_join_clause (i : Ident) (view : String) (ps : List Piece) (hps : OrdinaryText ps)
    (hview : ∀ c ∈ view.toList, c ∉ ['$', '{', '}', '%', '\n']) (hi : i.sql = some (String.ofList (render ps))) :
    identClause i view = String.ofList (render (ps.map (qualifyPiece view.toList))) := by
  rw [ordinary_iff] at hps
  unfold identClause
  rw [hi]
  simp only [String.toList_ofList]
  rw [fieldsToReplace_render _ hps, joinFold _ hview _ _ hps (refNames_good _ hps)]
  congr 2
  apply List.map_congr_left
  intro p hp
  cases p with
  | lit l => rfl
  | ref m =>
    have hm : m ∈ refNames ps := by
      clear hi hps
      induction ps with
      | nil => cases hp
      | cons q qs ih =>
        rcases List.mem_cons.mp hp with rfl | hp'
        · simp [refNames]
        · cases q with
          | lit l => exact ih hp'
          | ref k => exact List.mem_cons_of_mem _ (ih hp')
    simp only [appPiece, hm, if_true, qualifyPiece]
    split
    · rfl
    · split <;> rfl

/-! ### Concrete cases -/

def plainField (view sql : String) : RField := ⟨view.toList, some sql.toList, false, id⟩

def exGet : List Char → List Char → Res RField := fun _ name =>
  if name = "net".toList then .ok (plainField "orders" "${gross}  - ${TABLE}.tax")
  else if name = "gross".toList then .ok (plainField "orders" "${TABLE}.gross")
  else .error .accessDenied

def exPieces (f : RField) : List Piece :=
  if f.sql = some "${gross}  - ${TABLE}.tax".toList then [.ref "gross".toList, .lit "  - ".toList, .ref "TABLE".toList, .lit ".tax".toList]
  else if f.sql = some "${TABLE}.gross".toList then [.ref "TABLE".toList, .lit ".gross".toList]
  else if f.sql = some "coalesce(${net}, ${net} * 2)".toList then
    [.lit "coalesce(".toList, .ref "net".toList, .lit ", ".toList, .ref "net".toList, .lit " * 2)".toList]
  else [.lit (f.sql.getD [])]

/-- The hypotheses of `C45_expanded_partial` hold for fields that refer to each other, twice in one text. -/
example : (∀ v m g, exGet v m = .ok g → OrdinaryField exPieces g) ∧ OrdinaryField exPieces (plainField "orders" "coalesce(${net}, ${net} * 2)") ∧
    rawSql exGet 5 (plainField "orders" "coalesce(${net}, ${net} * 2)") =
      .ok "coalesce(orders.gross - orders.tax, orders.gross - orders.tax * 2)".toList := by
  refine ⟨?_, ?_, by decide +kernel⟩
  · intro v m g h
    unfold exGet at h
    split at h
    · injection h with h; subst h
      refine ⟨?_, by decide, fun t ht => ht⟩
      intro t ht; injection ht with ht; subst ht
      refine ⟨by decide +kernel, ?_⟩
      rw [show exPieces (plainField "orders" "${gross}  - ${TABLE}.tax") = [.ref "gross".toList, .lit "  - ".toList, .ref "TABLE".toList, .lit ".tax".toList] from by decide +kernel]
      rw [ordinary_iff]; decide +kernel
    · split at h
      · injection h with h; subst h
        refine ⟨?_, by decide, fun t ht => ht⟩
        intro t ht; injection ht with ht; subst ht
        refine ⟨by decide +kernel, ?_⟩
        rw [show exPieces (plainField "orders" "${TABLE}.gross") = [.ref "TABLE".toList, .lit ".gross".toList] from by decide +kernel]
        rw [ordinary_iff]; decide +kernel
      · cases h
  · refine ⟨?_, by decide, fun t ht => ht⟩
    intro t ht; injection ht with ht; subst ht
    refine ⟨by decide +kernel, ?_⟩
    rw [show exPieces (plainField "orders" "coalesce(${net}, ${net} * 2)") =
      [.lit "coalesce(".toList, .ref "net".toList, .lit ", ".toList, .ref "net".toList, .lit " * 2)".toList] from by decide +kernel]
    rw [ordinary_iff]; decide +kernel

/-- The hypotheses of `C45_number` and `C45_join_clause` hold for texts with several references. -/
example : OrdinaryText [.ref "revenue".toList, .lit " / ".toList, .ref "orders.count".toList] ∧
    numberSql "orders".toList (fun m => .ok ("SUM(".toList ++ m ++ ")".toList)) "${revenue} / ${orders.count}".toList =
      .ok "(SUM(revenue)) / (SUM(orders.count))".toList ∧
    identClause { name := "order_id", kind := .primary, sql := some "${TABLE}.id || ${region} || ${x.y}" } "orders" = "orders.id || ${orders.region} || ${x.y}" := by
  refine ⟨?_, by decide +kernel, by decide +kernel⟩
  rw [ordinary_iff]; decide +kernel

/-- C45 fails for runs of spaces inside quotes: the text `'a  b'` becomes `'a b'`, another string. -/
theorem C45_spaces : rawSql exGet 5 (plainField "orders" "${TABLE}.code = 'a  b'") = .ok "orders.code = 'a b'".toList := by
  decide +kernel

/-- In a measure of type number `${TABLE}` is replaced by the view in parentheses, so `${TABLE}.x` becomes `(orders).x`. -/
theorem C45_number_table : numberSql "orders".toList (fun m => .ok m) "SUM(${TABLE}.x)".toList = .ok "SUM((orders).x)".toList := by
  decide +kernel

end ML
