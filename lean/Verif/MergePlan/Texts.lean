import Verif.MergePlan.Model
import Mathlib.Data.List.Infix
/-
Helper lemmas on splitting names of sub-queries.
-/
set_option autoImplicit false
namespace ML

theorem containsSub_iff (sub l : List Char) : containsSub sub l = true ↔ sub <:+: l := by
  induction l with
  | nil => simp [containsSub]
  | cons c cs ih =>
    rw [containsSub, Bool.or_eq_true, ih, List.infix_cons_iff, List.isPrefixOf_iff_prefix]

theorem splitSubGo_skip (sep : List Char) (k : ℕ) (cs : List Char) (h : k ≤ cs.length) :
    splitSubGo sep k cs = splitSubGo sep 0 (cs.drop k) := by
  induction k generalizing cs with
  | zero => rfl
  | succ k ih =>
    cases cs with
    | nil => simp at h
    | cons c cs => simp only [splitSubGo, List.drop_succ_cons]; exact ih cs (by simpa using h)

theorem splitSub_none (sep a : List Char) (h : containsSub sep a = false) : splitSub sep a = [a] := by
  unfold splitSub
  induction a with
  | nil => rfl
  | cons c cs ih =>
    rw [containsSub, Bool.or_eq_false_iff] at h
    rw [splitSubGo, if_neg (by simp [h.1]), ih h.2]

theorem splitSub_append (s : Char) (tl a r : List Char) (hs : s ∉ tl) (h : containsSub (s :: tl) a = false) :
    splitSub (s :: tl) (a ++ (s :: tl) ++ r) = a :: splitSub (s :: tl) r := by
  unfold splitSub
  induction a with
  | nil =>
    rw [List.nil_append, List.cons_append, splitSubGo, if_pos]
    · rw [List.length_cons, Nat.add_sub_cancel, splitSubGo_skip _ _ _ (by simp), List.drop_left]
    · rw [List.isPrefixOf_iff_prefix]; exact ⟨r, rfl⟩
  | cons c cs ih =>
    rw [containsSub, Bool.or_eq_false_iff] at h
    rw [List.cons_append, List.cons_append, splitSubGo, if_neg, ih h.2]
    rw [List.isPrefixOf_iff_prefix]
    intro hp
    have h1 : ¬ (s :: tl) <+: c :: cs := by
      intro hq
      rw [← List.isPrefixOf_iff_prefix, h.1] at hq
      cases hq
    have hp2 : (s :: tl) <+: (c :: cs) ++ ((s :: tl) ++ r) := by simpa using hp
    have hq : (c :: cs) <+: (c :: cs) ++ ((s :: tl) ++ r) := ⟨_, rfl⟩
    rcases List.prefix_or_prefix_of_prefix hp2 hq with hx | ⟨t, ht⟩
    · exact h1 hx
    · cases t with
      | nil => rw [List.append_nil] at ht; exact h1 ⟨[], by rw [List.append_nil, ht]⟩
      | cons x t =>
        rw [← ht] at hp2
        have := (List.prefix_append_right_inj (c :: cs)).mp hp2
        obtain ⟨u, hu⟩ := this
        simp only [List.cons_append, List.cons.injEq] at hu
        simp only [List.cons_append, List.cons.injEq] at ht
        exact hs (by rw [← ht.2, hu.1, ht.1]; simp)

theorem containsSub_append_of_not_mem (sep a b : List Char) (h : containsSub sep a = false) (hb : ∀ c ∈ b, c ∉ sep) (hs : sep ≠ []) :
    containsSub sep (a ++ b) = false := by
  rw [Bool.eq_false_iff, Ne, containsSub_iff] at h ⊢
  rintro ⟨x, y, e⟩
  rw [List.append_assoc] at e
  rcases List.append_eq_append_iff.mp e with ⟨z, h1, h2⟩ | ⟨z, h1, h2⟩
  · rcases List.append_eq_append_iff.mp h2 with ⟨w, h3, h4⟩ | ⟨w, h3, h4⟩
    · exact h ⟨x, w, by rw [h1, h3, List.append_assoc]⟩
    · cases w with
      | nil => simp at h3 h4; exact h ⟨x, [], by rw [h1, h3]; simp⟩
      | cons c w => exact hb c (by rw [h4]; simp) (by rw [h3]; simp)
  · cases sep with
    | nil => exact hs rfl
    | cons c sep =>
      cases z with
      | nil => simp at h2; exact hb c (by rw [h2]; simp) (by simp)
      | cons d z => exact hb c (by rw [h2]; simp) (by simp)

theorem strip_nonunder (l : List Char) (h1 : l.head? ≠ some '_') (h2 : l.getLast? ≠ some '_') (pre post : ℕ) :
    stripUnderscores (List.replicate pre '_' ++ l ++ List.replicate post '_') = l ∨ l = [] := by
  by_cases hl : l = []
  · exact .inr hl
  · left
    unfold stripUnderscores
    have d1 : ∀ (n : ℕ) (l : List Char), l.head? ≠ some '_' → (List.replicate n '_' ++ l).dropWhile (· = '_') = l := by
      intro n l hl
      induction n with
      | zero =>
        cases l with
        | nil => rfl
        | cons c l =>
          simp at hl
          simp [hl]
      | succ n ih => rw [List.replicate_succ, List.cons_append, List.dropWhile_cons]; simpa using ih
    rw [List.append_assoc, d1]
    · rw [List.reverse_append, List.reverse_replicate, d1]
      · exact List.reverse_reverse l
      · rw [List.head?_reverse]; exact h2
    · cases l with
      | nil => exact absurd rfl hl
      | cons c l => exact h1

theorem mem_strip (c : Char) (l : List Char) (h : c ∈ l) (hc : c ≠ '_') : c ∈ stripUnderscores l := by
  have hd : ∀ l : List Char, c ∈ l → c ∈ l.dropWhile (· = '_') := by
    intro l
    induction l with
    | nil => simp
    | cons x l ih =>
      intro h
      rw [List.dropWhile_cons]
      split
      · rename_i hx
        simp at hx
        rcases List.mem_cons.mp h with e | h
        · exact absurd (e.trans hx) hc
        · exact ih h
      · exact h
  unfold stripUnderscores
  rw [List.mem_reverse]
  apply hd
  rw [List.mem_reverse]
  exact hd l h

theorem digits_nonempty (n : ℕ) : (toString n).toList ≠ [] := by
  rw [show toString n = Nat.repr n from rfl, Nat.toList_repr]
  exact Nat.toDigits_ne_nil

theorem digits_isDigit (n : ℕ) (c : Char) (h : c ∈ (toString n).toList) : c.isDigit = true := by
  rw [show toString n = Nat.repr n from rfl, Nat.toList_repr] at h
  exact Nat.isDigit_of_mem_toDigits (b := 10) (by decide) (by decide) h

theorem underscore_not_digit (c : Char) (h : c.isDigit = true) : c ≠ '_' := by rintro rfl; exact absurd h (by decide)

theorem strip_digits (n pre post : ℕ) :
    stripUnderscores (List.replicate pre '_' ++ (toString n).toList ++ List.replicate post '_') = (toString n).toList := by
  rcases strip_nonunder (toString n).toList
      (fun h => underscore_not_digit '_' (digits_isDigit n _ (List.mem_of_mem_head? h)) rfl)
      (fun h => underscore_not_digit '_' (digits_isDigit n _ (List.mem_of_getLast? h)) rfl) pre post with h | h
  · exact h
  · exact absurd h (digits_nonempty n)

theorem no_subquery_of_no_s (l : List Char) (h : 's' ∉ l) : containsSub "subquery".toList l = false := by
  rw [Bool.eq_false_iff, Ne, containsSub_iff]
  intro c
  exact h (c.subset (by decide))

theorem sep_eq : "subquery".toList = 's' :: "ubquery".toList := by decide

/-- The text of the join graphs `subquery_n₁_subquery_n₂...` split at the word. -/
theorem split_graphs (ns : List ℕ) :
    ∀ a : List Char, containsSub "subquery".toList a = false →
    (splitSub "subquery".toList (a ++ (underscoreJoin (ns.map (fun n => "subquery_" ++ toString n))).toList)).map stripUnderscores =
      stripUnderscores a :: ns.map (fun n => (toString n).toList) := by
  induction ns with
  | nil =>
    intro a ha
    simp only [List.map_nil, underscoreJoin]
    rw [show "".toList = [] from by decide, List.append_nil, splitSub_none _ _ ha]
    rfl
  | cons n ns ih =>
    intro a ha
    have hdig : 's' ∉ '_' :: (toString n).toList := by
      rw [List.mem_cons]
      rintro (h | h)
      · exact absurd h (by decide)
      · exact absurd (digits_isDigit n _ h) (by decide)
    cases ns with
    | nil =>
      have e : a ++ (underscoreJoin ([n].map (fun n => "subquery_" ++ toString n))).toList =
          a ++ ('s' :: "ubquery".toList) ++ ('_' :: (toString n).toList) := by
        simp only [List.map_cons, List.map_nil, underscoreJoin, String.toList_append]
        rw [show "subquery_".toList = ('s' :: "ubquery".toList) ++ ['_'] from by decide]
        simp
      rw [e, sep_eq, splitSub_append _ _ _ _ (by decide) (by rw [← sep_eq]; exact ha), ← sep_eq,
        splitSub_none _ _ (no_subquery_of_no_s _ hdig)]
      have := strip_digits n 1 0
      simp only [List.replicate_one, List.replicate_zero, List.append_nil, List.singleton_append] at this
      rw [List.map_cons, List.map_cons, this]
      rfl
    | cons m ns =>
      have e : a ++ (underscoreJoin ((n :: m :: ns).map (fun n => "subquery_" ++ toString n))).toList =
          a ++ ('s' :: "ubquery".toList) ++ (('_' :: (toString n).toList ++ ['_']) ++
            (underscoreJoin ((m :: ns).map (fun n => "subquery_" ++ toString n))).toList) := by
        simp only [List.map_cons, underscoreJoin, String.toList_append]
        rw [show "subquery_".toList = ('s' :: "ubquery".toList) ++ ['_'] from by decide,
          show "_".toList = ['_'] from by decide]
        simp
      have hdig2 : 's' ∉ '_' :: (toString n).toList ++ ['_'] := by
        intro h
        rcases List.mem_append.mp h with h | h
        · exact hdig h
        · simp at h
      rw [e, sep_eq, splitSub_append _ _ _ _ (by decide) (by rw [← sep_eq]; exact ha), ← sep_eq, List.map_cons,
        ih _ (no_subquery_of_no_s _ hdig2)]
      have := strip_digits n 1 1
      simp only [List.replicate_one, List.singleton_append] at this
      rw [List.cons_append] at this ⊢
      rw [this]
      rfl

end ML
