import Verif.Refs.Spec
import Verif.ParseQ.Lemmas
/- Helper lemmas: finding and replacing references in a rendered text. -/
set_option autoImplicit false
namespace ML
open Spec

/-- The names a reference may have. -/
abbrev GoodName (n : List Char) : Prop := ∀ c ∈ n, c ∉ ['$', '{', '}', '%', '\n']

/-- One piece of an ordinary text. -/
def GoodPiece : Piece → Prop
  | .lit l => '{' ∉ l
  | .ref n => GoodName n

theorem ordinary_iff (ps : List Piece) : OrdinaryText ps ↔ ∀ p ∈ ps, GoodPiece p := by
  unfold OrdinaryText
  refine forall_congr' (fun p => forall_congr' (fun _ => ?_))
  cases p <;> exact Iff.rfl

theorem good_dollar {n : List Char} (h : GoodName n) : '$' ∉ n := fun hm => h _ hm (by simp)
theorem good_close {n : List Char} (h : GoodName n) : '}' ∉ n := fun hm => h _ hm (by simp)
theorem good_line {n : List Char} (h : GoodName n) : '\n' ∉ n := fun hm => h _ hm (by simp)
theorem good_open {n : List Char} (h : GoodName n) : '{' ∉ n := fun hm => h _ hm (by simp)
theorem good_percent {n : List Char} (h : GoodName n) : '%' ∉ n := fun hm => h _ hm (by simp)

theorem render_head (ps : List Piece) (h : ∀ p ∈ ps, GoodPiece p) : (render ps).head? ≠ some '{' := by
  induction ps with
  | nil => simp [render]
  | cons p ps ih =>
    cases p with
    | lit l =>
      have hl : '{' ∉ l := h (.lit l) (by simp)
      cases l with
      | nil => exact ih (fun q hq => h q (List.mem_cons_of_mem _ hq))
      | cons c cs =>
        simp only [render, List.cons_append, List.head?_cons, ne_eq, Option.some.injEq]
        rintro rfl
        exact hl (by simp)
    | ref n => simp [render]

theorem render_append (ps qs : List Piece) : render (ps ++ qs) = render ps ++ render qs := by
  induction ps with
  | nil => rfl
  | cons p ps ih => cases p <;> simp [render, ih]

theorem replaceGo_skip (old new : List Char) (k : ℕ) (s : List Char) (h : k ≤ s.length) :
    replaceGo old new k s = replaceGo old new 0 (s.drop k) := by
  induction k generalizing s with
  | zero => rfl
  | succ k ih =>
    cases s with
    | nil => simp at h
    | cons c cs =>
      simp only [replaceGo, List.drop_succ_cons]
      exact ih cs (by simpa using h)

theorem replace_match (old new r : List Char) (h : old ≠ []) : replaceAll old new (old ++ r) = new ++ replaceAll old new r := by
  cases old with
  | nil => exact absurd rfl h
  | cons o os =>
    show replaceGo (o :: os) new 0 (o :: (os ++ r)) = _
    have hp : (o :: os).isPrefixOf (o :: (os ++ r)) = true := List.isPrefixOf_iff_prefix.mpr ⟨r, rfl⟩
    simp only [replaceGo, hp, if_true]
    rw [replaceGo_skip _ _ _ _ (by simp)]
    simp [replaceAll]

theorem prefix_refText (n m r : List Char) (hn : '}' ∉ n) (hm : '}' ∉ m) (h : n ++ ['}'] <+: m ++ '}' :: r) : n = m := by
  induction n generalizing m with
  | nil =>
    cases m with
    | nil => rfl
    | cons c cs =>
      rw [List.nil_append, List.cons_append, List.cons_prefix_cons] at h
      exact absurd (h.1 ▸ List.mem_cons_self) hm
  | cons a as ih =>
    cases m with
    | nil =>
      rw [List.nil_append, List.cons_append, List.cons_prefix_cons] at h
      exact absurd (by simp [h.1]) hn
    | cons c cs =>
      rw [List.cons_append, List.cons_append, List.cons_prefix_cons] at h
      rw [h.1, ih cs (fun hx => hn (List.mem_cons_of_mem _ hx)) (fun hx => hm (List.mem_cons_of_mem _ hx)) h.2]

/-- Replace one reference by a piece. -/
def substPiece (n : List Char) (q : Piece) (p : Piece) : Piece := if p = .ref n then q else p

theorem replace_render (n : List Char) (q : Piece) (ps : List Piece) (hn : GoodName n) (h : ∀ p ∈ ps, GoodPiece p) :
    replaceAll (refText n) (render [q]) (render ps) = render (ps.map (substPiece n q)) := by
  have hrt : refText n = '$' :: '{' :: (n ++ ['}']) := rfl
  induction ps with
  | nil => simp [render, replaceAll, replaceGo]
  | cons p ps ih =>
    have hps : ∀ p ∈ ps, GoodPiece p := fun q hq => h q (List.mem_cons_of_mem _ hq)
    cases p with
    | lit l =>
      have hl : '{' ∉ l := h (.lit l) (by simp)
      show replaceAll _ _ (l ++ render ps) = l ++ render (ps.map (substPiece n q))
      rw [replace_over, ih hps]
      intro s hs hne hp
      rw [hrt] at hp
      cases s with
      | nil => exact hne rfl
      | cons c cs =>
        rw [List.cons_append, List.cons_prefix_cons] at hp
        cases cs with
        | nil =>
          rw [List.nil_append] at hp
          obtain ⟨t, ht⟩ := hp.2
          exact render_head ps hps (by rw [← ht]; rfl)
        | cons d ds =>
          rw [List.cons_append, List.cons_prefix_cons] at hp
          apply hl
          rw [hp.2.1]
          exact hs.subset (by simp)
    | ref m =>
      have hm : GoodName m := h (.ref m) (by simp)
      have hren : render (Piece.ref m :: ps) = refText m ++ render ps := by simp [render, refText]
      by_cases hnm : m = n
      · subst hnm
        rw [hren, replace_match _ _ _ (by simp [refText]), ih hps]
        simp only [List.map_cons, substPiece, if_true]
        exact (render_append [q] _).symm
      · rw [hren, replace_over, ih hps]
        · have : substPiece n q (.ref m) = .ref m := by
            unfold substPiece
            rw [if_neg]
            intro e
            exact hnm (Piece.ref.inj e)
          simp only [List.map_cons, this, render]
          simp [refText]
        · intro s hs hne hp
          rw [hrt] at hp
          have hrm : refText m = '$' :: '{' :: (m ++ ['}']) := rfl
          rw [hrm, List.suffix_cons_iff] at hs
          rcases hs with rfl | hs
          · simp only [List.cons_append, List.cons_prefix_cons, true_and, List.append_assoc, List.nil_append] at hp
            exact hnm (prefix_refText n m (render ps) (good_close hn) (good_close hm) hp).symm
          · cases s with
            | nil => exact hne rfl
            | cons c cs =>
              rw [List.cons_append, List.cons_prefix_cons] at hp
              have : c ∈ '{' :: (m ++ ['}']) := hs.subset (by simp)
              rw [← hp.1] at this
              simp only [List.mem_cons, List.mem_append, List.not_mem_nil, or_false] at this
              rcases this with h1 | h1 | h1
              · exact absurd h1 (by decide)
              · exact good_dollar hm h1
              · exact absurd h1 (by decide)

theorem untilBrace_name (n r : List Char) (h1 : '}' ∉ n) (h2 : '\n' ∉ n) : untilBrace (n ++ '}' :: r) = some n := by
  induction n with
  | nil => simp [untilBrace]
  | cons c cs ih =>
    simp only [List.mem_cons, not_or] at h1 h2
    simp only [List.cons_append, untilBrace]
    rw [if_neg (fun e => h1.1 e.symm), if_neg (fun e => h2.1 e.symm), ih h1.2 h2.2]
    rfl

theorem refsGo_skip (k : ℕ) (s : List Char) (h : k ≤ s.length) : refsGo k s = refsGo 0 (s.drop k) := by
  induction k generalizing s with
  | zero => rfl
  | succ k ih =>
    cases s with
    | nil => simp at h
    | cons c cs =>
      simp only [refsGo, List.drop_succ_cons]
      exact ih cs (by simpa using h)

theorem refsGo_step (c : Char) (cs : List Char) (h : ¬ (c = '$' ∧ cs.head? = some '{')) : refsGo 0 (c :: cs) = refsGo 0 cs := by
  rw [refsGo]
  rintro rest rfl rfl
  exact h ⟨rfl, rfl⟩

theorem refsGo_lit (l r : List Char) (hl : '{' ∉ l) (hr : r.head? ≠ some '{') : refsGo 0 (l ++ r) = refsGo 0 r := by
  induction l with
  | nil => rfl
  | cons c cs ih =>
    simp only [List.mem_cons, not_or] at hl
    rw [List.cons_append, refsGo_step, ih hl.2]
    rintro ⟨_, h2⟩
    cases cs with
    | nil => exact hr h2
    | cons d ds =>
      simp only [List.cons_append, List.head?_cons, Option.some.injEq] at h2
      exact hl.2 (by simp [h2])

theorem fieldsToReplace_render (ps : List Piece) (h : ∀ p ∈ ps, GoodPiece p) : fieldsToReplace (render ps) = refNames ps := by
  unfold fieldsToReplace
  induction ps with
  | nil => rfl
  | cons p ps ih =>
    have hps : ∀ p ∈ ps, GoodPiece p := fun q hq => h q (List.mem_cons_of_mem _ hq)
    cases p with
    | lit l =>
      show refsGo 0 (l ++ render ps) = refNames ps
      rw [refsGo_lit _ _ (h (.lit l) (by simp)) (render_head ps hps), ih hps]
    | ref n =>
      have hn : GoodName n := h (.ref n) (by simp)
      have hu := untilBrace_name n (render ps) (good_close hn) (good_line hn)
      show refsGo 0 ('$' :: '{' :: (n ++ '}' :: render ps)) = n :: refNames ps
      rw [refsGo]
      simp only [hu]
      rw [refsGo_skip _ _ (by simp)]
      congr 1
      have : ('{' :: (n ++ '}' :: render ps)).drop (n.length + 2) = render ps := by
        simp only [List.drop_succ_cons]
        rw [List.drop_append, List.drop_eq_nil_of_le (by omega)]
        simp
      rw [this, ih hps]

/-- Replace several references, those of the list, by pieces. -/
def appPiece (f : List Char → Option Piece) (ns : List (List Char)) : Piece → Piece
  | .lit l => .lit l
  | .ref m => if m ∈ ns then (f m).getD (.ref m) else .ref m

theorem app_cons (f : List Char → Option Piece) (n : List Char) (ns : List (List Char)) (p : Piece)
    (hstable : ∀ m k, f m = some (.ref k) → f k = none) :
    appPiece f ns (substPiece n ((f n).getD (.ref n)) p) = appPiece f (n :: ns) p := by
  cases p with
  | lit l => rfl
  | ref m =>
    unfold substPiece
    by_cases hm : m = n
    · subst hm
      rw [if_pos rfl]
      cases hf : f m with
      | none => simp [appPiece, hf]
      | some q =>
        simp only [Option.getD_some, appPiece, List.mem_cons, true_or, if_true, hf]
        cases q with
        | lit l => rfl
        | ref k =>
          have := hstable m k hf
          simp [this]
    · rw [if_neg (fun e => hm (Piece.ref.inj e))]
      simp [appPiece, hm]

theorem contains_skip (c : Char) (cs : List Char) (h : c ≠ '{') : containsSub ['{', '%'] (c :: cs) = containsSub ['{', '%'] cs := by
  simp only [containsSub, List.isPrefixOf]
  have : ('{' == c) = false := by simp [Ne.symm h]
  rw [this]
  simp

theorem contains_over (l r : List Char) (h : '{' ∉ l) : containsSub ['{', '%'] (l ++ r) = containsSub ['{', '%'] r := by
  induction l with
  | nil => rfl
  | cons c cs ih =>
    simp only [List.mem_cons, not_or] at h
    rw [List.cons_append, contains_skip c _ (Ne.symm h.1), ih h.2]

theorem no_template (ps : List Piece) (h : ∀ p ∈ ps, GoodPiece p) : containsSub "{%".toList (render ps) = false := by
  have e : "{%".toList = ['{', '%'] := rfl
  rw [e]
  induction ps with
  | nil => rfl
  | cons p ps ih =>
    have hps : ∀ p ∈ ps, GoodPiece p := fun q hq => h q (List.mem_cons_of_mem _ hq)
    cases p with
    | lit l =>
      show containsSub _ (l ++ render ps) = false
      rw [contains_over _ _ (h (.lit l) (by simp)), ih hps]
    | ref n =>
      have hn : GoodName n := h (.ref n) (by simp)
      show containsSub _ ('$' :: '{' :: (n ++ '}' :: render ps)) = false
      rw [contains_skip _ _ (by decide)]
      rw [containsSub]
      have h1 : containsSub ['{', '%'] (n ++ '}' :: render ps) = false := by
        rw [contains_over _ _ (good_open hn), contains_skip _ _ (by decide), ih hps]
      rw [h1, Bool.or_false]
      cases n with
      | nil => rfl
      | cons c cs =>
        have : '%' ≠ c := by
          rintro rfl
          exact good_percent hn (by simp)
        simp [List.isPrefixOf, this]

theorem collapse_subset (b : Bool) (l : List Char) (c : Char) (h : c ∈ collapseSpaces b l) : c ∈ l := by
  induction l generalizing b with
  | nil => exact h
  | cons d ds ih =>
    rw [collapseSpaces] at h
    split at h
    · split at h
      · exact List.mem_cons_of_mem _ (ih _ h)
      · rcases List.mem_cons.mp h with rfl | h
        · simp
        · exact List.mem_cons_of_mem _ (ih _ h)
    · rcases List.mem_cons.mp h with rfl | h
      · simp
      · exact List.mem_cons_of_mem _ (ih _ h)

theorem strip_subset (l : List Char) (c : Char) (h : c ∈ strip l) : c ∈ l := by
  unfold strip at h
  rw [List.mem_reverse] at h
  have := (List.dropWhile_suffix _).subset h
  rw [List.mem_reverse] at this
  exact (List.dropWhile_suffix _).subset this

end ML
