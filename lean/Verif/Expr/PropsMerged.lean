import Verif.Expr.PropsCases
import Verif.MergeStmt.Props
/-
C76 for merged metrics: the formula of a merged metric over the columns of the sub-queries.
-/
set_option autoImplicit false

namespace ML.Spec

/-- What a merged metric is to its author, following references to depth `n`: the expression of its text, with a metric that is a formula as that formula and any
other metric as its column. -/
def formulaMeaning (get : String → List Char → Res SMetric) (pieces : SMetric → List Piece) : ℕ → SMetric → Option SExp
  | 0, _ => none
  | n + 1, f =>
    let sub (m : List Char) : Option SExp :=
      match get f.view m with
      | .error _ => none
      | .ok g => if g.formula then formulaMeaning get pieces n g else some (.atom g.column.toList)
    match readPieces (pieces f) with
    | none => none
    | some E => if (refNames (pieces f)).all (fun m => (sub m).isSome) then some (E.subst (fun m => (sub m).getD .nil)) else none

/-- What the words mean on a line of the answer: a name of a column its value, any other word what it means everywhere. -/
def onLine {D V : Type} (I : Interp D) (into : Option V → D) (isColumn : String → Bool) (line : String → Option V) : Interp D :=
  { I with atom := fun s => if isColumn (String.ofList s) then into (line (String.ofList s)) else I.atom s }

/-- The words of an expression. -/
def SExp.atoms : SExp → List (List Char)
  | .atom s => [s]
  | .call _ a | .tuple a | .un _ a => a.atoms
  | .bin _ a b | .cons a b => a.atoms ++ b.atoms
  | _ => []

theorem value_onLine {D V : Type} (I : Interp D) (into : Option V → D) (isColumn : String → Bool) (l l' : String → Option V) (env : List Char → D)
    (e : SExp) (h : ∀ c ∈ (e.atoms.map String.ofList).filter isColumn, l c = l' c) :
    e.value (onLine I into isColumn l) env = e.value (onLine I into isColumn l') env := by
  induction e with
  | atom s =>
    simp only [SExp.value, onLine]
    split_ifs with hs
    · rw [h (String.ofList s) (by simp [SExp.atoms, hs])]
    · rfl
  | call f a ih => exact congrArg (I.call f) (ih h)
  | tuple a ih => exact congrArg I.tuple (ih h)
  | un o a ih => exact congrArg (I.un o) (ih h)
  | bin o a b iha ihb =>
    simp only [SExp.atoms, List.map_append, List.filter_append, List.mem_append] at h
    have e1 := iha (fun c hc => h c (.inl hc))
    have e2 := ihb (fun c hc => h c (.inr hc))
    show I.bin o _ _ = I.bin o _ _
    rw [e1, e2]
  | cons a b iha ihb =>
    simp only [SExp.atoms, List.map_append, List.filter_append, List.mem_append] at h
    have e1 := iha (fun c hc => h c (.inl hc))
    have e2 := ihb (fun c hc => h c (.inr hc))
    show I.cons _ _ = I.cons _ _
    rw [e1, e2]
  | _ => rfl

/-- A warehouse that reads a formula as an expression: its words are the columns of the sub-queries, or mean the same on all lines. -/
def readingHouse {D V : Type} (I : Interp D) (into : Option V → D) (out : D → Option V) (isColumn : String → Bool) (test : ℕ → Option V → TV)
    (selectInWhere : Bool) : MWarehouse V where
  names t := match readText t with
    | none => []
    | some e => (e.atoms.map String.ofList).filter isColumn
  compute t line := match readText t with
    | none => none
    | some e => out (e.value (onLine I into isColumn line) (fun _ => I.nil))
  reads := by
    intro t l l' h
    cases hr : readText t with
    | none => rfl
    | some e =>
      simp only [hr] at h
      exact congrArg out (value_onLine I into isColumn l l' _ e h)
  test := test
  selectInWhere := selectInWhere

/-- The value of a merged metric on a line, following references to depth `n`: its text computed with the values of the metrics it names, that of a formula
computed likewise, that of any other metric its column on the line. `none` when a text is no expression or a reference leads nowhere. -/
def formulaValue {D V : Type} (I : Interp D) (into : Option V → D) (isColumn : String → Bool) (line : String → Option V)
    (get : String → List Char → Res SMetric) (pieces : SMetric → List Piece) : ℕ → SMetric → Option D
  | 0, _ => none
  | n + 1, f =>
    let sub (m : List Char) : Option D :=
      match get f.view m with
      | .error _ => none
      | .ok g => if g.formula then formulaValue I into isColumn line get pieces n g else some (into (line g.column))
    match readPieces (pieces f) with
    | none => none
    | some E =>
      if (refNames (pieces f)).all (fun m => (sub m).isSome) then some (E.value (onLine I into isColumn line) (fun m => (sub m).getD I.nil)) else none

end ML.Spec

namespace ML
open Spec

theorem value_refs {D : Type} (I : Interp D) (env env' : List Char → D) (e : SExp) (h : ∀ m ∈ e.refs, env m = env' m) : e.value I env = e.value I env' := by
  induction e with
  | ref n => exact h n (by simp [SExp.refs])
  | call f a ih => exact congrArg (I.call f) (ih h)
  | tuple a ih => exact congrArg I.tuple (ih h)
  | un o a ih => exact congrArg (I.un o) (ih h)
  | bin o a b iha ihb =>
    simp only [SExp.refs, List.mem_append] at h
    show I.bin o _ _ = I.bin o _ _
    rw [iha (fun m hm => h m (.inl hm)), ihb (fun m hm => h m (.inr hm))]
  | cons a b iha ihb =>
    simp only [SExp.refs, List.mem_append] at h
    show I.cons _ _ = I.cons _ _
    rw [iha (fun m hm => h m (.inl hm)), ihb (fun m hm => h m (.inr hm))]
  | _ => rfl

/-- C76, for merged metrics: the SQL of a merged metric is read as its formula over the columns of the sub-queries, to any depth. -/
theorem C76_merged (get : String → List Char → Res SMetric) (pieces : SMetric → List Piece)
    (hget : ∀ v m g, get v m = .ok g → OrdinaryMetric pieces g)
    (hcol : ∀ v m g, get v m = .ok g → g.formula = false → aloneText g.column.toList = some (.atom g.column.toList)) (n : ℕ) :
    ∀ (f : SMetric), OrdinaryMetric pieces f → ∀ e, formulaMeaning get pieces n f = some e →
    ∃ t, strictSql get n f = .ok t ∧ readText t = some e := by
  induction n with
  | zero => intro f _ e h; cases h
  | succ n ih =>
    intro f hf e h
    have key : ∀ e, formulaMeaning get pieces (n + 1) f = some e → ∃ t, formulaText get pieces (n + 1) f = some t ∧ readText t = some e := by
      clear h e
      intro e h
      simp only [formulaMeaning] at h
      cases hE : readPieces (pieces f) with
      | none => rw [hE] at h; cases h
      | some E =>
        rw [hE] at h
        simp only at h
        split_ifs at h with hall
        have hsub := List.all_eq_true.mp hall
        simp only [formulaText]
        rw [if_neg (by
          simp only [List.any_eq_true, not_exists, not_and, Bool.not_eq_true, Option.isNone_eq_false_iff]
          intro m hm
          have := hsub m hm
          cases hg : get f.view m with
          | error er => rw [hg] at this; cases this
          | ok g =>
            rw [hg] at this
            simp only at this ⊢
            split_ifs with hfo
            · rw [if_pos hfo] at this
              obtain ⟨e', he'⟩ := Option.isSome_iff_exists.mp this
              obtain ⟨t, h1, _⟩ := ih g (hget _ _ _ hg) e' he'
              have h2 := C60_formula get pieces hget n g (hget _ _ _ hg)
              rw [h1] at h2
              rw [← h2]
              rfl
            · rfl)]
        refine ⟨_, rfl, ?_⟩
        have hread := read_fill (pieces f) E hE (fun m => (match get f.view m with
            | .error _ => none
            | .ok g => if g.formula then (formulaText get pieces n g).map (fun t => '(' :: t ++ [')']) else some g.column.toList : Option (List Char)).getD [])
          (fun m => (match get f.view m with
            | .error _ => none
            | .ok g => if g.formula then formulaMeaning get pieces n g else some (.atom g.column.toList) : Option SExp).getD .nil) (fun m hm => by
            have := hsub m hm
            cases hg : get f.view m with
            | error er => rw [hg] at this; cases this
            | ok g =>
              rw [hg] at this
              simp only at this ⊢
              cases hfo : g.formula with
              | true =>
                simp only [hfo, if_true] at this ⊢
                obtain ⟨e', he'⟩ := Option.isSome_iff_exists.mp this
                obtain ⟨t, h1, h3⟩ := ih g (hget _ _ _ hg) e' he'
                have h2 := C60_formula get pieces hget n g (hget _ _ _ hg)
                rw [h1] at h2
                rw [← h2, he']
                obtain ⟨hc1, hc2⟩ := closed_of_read h3
                have := alone_paren hc1
                rw [hc2] at this
                exact this
              | false =>
                simp only [Bool.false_eq_true, if_false, Option.getD_some]
                exact hcol _ _ _ hg hfo)
        have hb : ETok.bad ∉ exprTokens (fill (fun m => (match get f.view m with
            | .error _ => none
            | .ok g => if g.formula then (formulaText get pieces n g).map (fun t => '(' :: t ++ [')']) else some g.column.toList : Option (List Char)).getD [])
            (pieces f)) := by
          have hc := (closed_of_read hread).1
          obtain ⟨is, his⟩ := Option.isSome_iff_exists.mp hc
          exact read_noBad _ _ _ _ _ his
        have hs := tokens_strip hb
        rw [← Option.some.inj h]
        unfold readText at hread ⊢
        rw [← hread]
        exact congrArg readTokens hs
    obtain ⟨t, h1, h2⟩ := key e h
    have h3 := C60_formula get pieces hget (n + 1) f hf
    rw [h1] at h3
    cases hs : strictSql get (n + 1) f with
    | error er => rw [hs] at h3; cases h3
    | ok s =>
      rw [hs] at h3
      exact ⟨s, rfl, by rw [Option.some.inj h3]; exact h2⟩

theorem formula_value_meaning {D V : Type} (I : Interp D) (into : Option V → D) (isColumn : String → Bool) (line : String → Option V)
    (get : String → List Char → Res SMetric) (pieces : SMetric → List Piece)
    (hcol : ∀ v m g, get v m = .ok g → g.formula = false → isColumn g.column = true) (n : ℕ) :
    ∀ (f : SMetric), (formulaMeaning get pieces n f).map (fun e => e.value (onLine I into isColumn line) (fun _ => I.nil)) =
      formulaValue I into isColumn line get pieces n f := by
  induction n with
  | zero => intro f; rfl
  | succ n ih =>
    intro f
    have hsub : ∀ m, (match get f.view m with
        | .error _ => none
        | .ok g => if g.formula then formulaMeaning get pieces n g else some (.atom g.column.toList) : Option SExp).map
          (fun e => e.value (onLine I into isColumn line) (fun _ => I.nil)) =
        (match get f.view m with
        | .error _ => none
        | .ok g => if g.formula then formulaValue I into isColumn line get pieces n g else some (into (line g.column)) : Option D) := by
      intro m
      cases hg : get f.view m with
      | error er => rfl
      | ok g =>
        simp only
        cases hfo : g.formula with
        | true => simp only [if_true]; exact ih g
        | false =>
          simp only [Bool.false_eq_true, if_false, Option.map_some, SExp.value, onLine, String.ofList_toList, hcol _ _ _ hg hfo, if_true]
    simp only [formulaMeaning, formulaValue]
    cases hE : readPieces (pieces f) with
    | none => rfl
    | some E =>
      simp only [← hsub, Option.isSome_map]
      split_ifs with hall
      · simp only [Option.map_some, value_subst]
        refine congrArg some (value_refs _ _ _ E (fun m _ => ?_))
        generalize (match get f.view m with
          | .error _ => none
          | .ok g => if g.formula then formulaMeaning get pieces n g else some (.atom g.column.toList) : Option SExp) = o
        cases o <;> rfl
      · rfl

/-- C76, for merged metrics on the lines of the answer: a warehouse that reads the SQL of a merged metric computes its formula from the metrics it names, to any
depth; on each line of the answer of C60 from the metrics of that line. -/
theorem C76_merged_value {D V : Type} (I : Interp D) (into : Option V → D) (out : D → Option V) (isColumn : String → Bool) (test : ℕ → Option V → TV)
    (inWhere : Bool) (line : String → Option V) (get : String → List Char → Res SMetric) (pieces : SMetric → List Piece)
    (hget : ∀ v m g, get v m = .ok g → OrdinaryMetric pieces g)
    (hcol : ∀ v m g, get v m = .ok g → g.formula = false → aloneText g.column.toList = some (.atom g.column.toList) ∧ isColumn g.column = true)
    (n : ℕ) (f : SMetric) (hf : OrdinaryMetric pieces f) (d : D) (hd : formulaValue I into isColumn line get pieces n f = some d) :
    ∃ t, strictSql get n f = .ok t ∧ formulaText get pieces n f = some t ∧
      (readingHouse I into out isColumn test inWhere).compute t line = out d := by
  have h1 := formula_value_meaning I into isColumn line get pieces (fun v m g a b => (hcol v m g a b).2) n f
  rw [hd] at h1
  cases he : formulaMeaning get pieces n f with
  | none => rw [he] at h1; cases h1
  | some e =>
    rw [he] at h1
    obtain ⟨t, ht, hr⟩ := C76_merged get pieces hget (fun v m g a b => (hcol v m g a b).1) n f hf e he
    have h2 := C60_formula get pieces hget n f hf
    rw [ht] at h2
    refine ⟨t, ht, h2.symm, ?_⟩
    simp only [readingHouse, hr]
    exact congrArg out (Option.some.inj h1)

/-! ### A case that meets the hypotheses: the share of a count in a sum of counts -/

/-- Arithmetic with NULL (an example; it models no file in /repo). -/
def nullArith : Interp (Option ℤ) where
  atom _ := some 0
  str _ := none
  other _ := none
  call _ a := a
  tuple a := a
  bin o a b := match a, b with
    | some x, some y => if o = ['+'] then some (x + y) else if y = 0 then none else some (x / y)
    | _, _ => none
  un _ a := a
  nil := none
  cons a _ := a

theorem share_columns (v : String) (m : List Char) (g : SMetric) (h : shareGet v m = .ok g) (hf : g.formula = false) :
    aloneText g.column.toList = some (.atom g.column.toList) ∧ (g.column == "a_n" || g.column == "b_n") = true := by
  unfold shareGet at h
  split_ifs at h <;> cases h
  · exact ⟨by decide +kernel, by decide +kernel⟩
  · exact ⟨by decide +kernel, by decide +kernel⟩
  · cases hf

/-- `a_n / (a_n + b_n)` on a line where the counts are 60 and -50. Without the parentheses it would be -49. -/
example : ∃ t, strictSql shareGet 3 ⟨"a", "a_share", true, "${n} / ${all}".toList⟩ = .ok t ∧
    (readingHouse nullArith id id (fun c => c == "a_n" || c == "b_n") (fun _ _ => .u) true).compute t
      (fun c => if c = "a_n" then some 60 else some (-50)) = some 6 := by
  obtain ⟨t, h1, _, h2⟩ := C76_merged_value nullArith id id (fun c => c == "a_n" || c == "b_n") (fun _ _ => .u) true
    (fun c => if c = "a_n" then some 60 else some (-50)) shareGet sharePieces sharePieces_ordinary share_columns 3
    ⟨"a", "a_share", true, "${n} / ${all}".toList⟩
    ⟨by decide +kernel, by rw [ordinary_iff]; decide +kernel, by decide +kernel, by decide +kernel⟩ (some 6) (by decide +kernel)
  exact ⟨t, h1, h2⟩

end ML
