import Verif.ParseQ.Spec
import Verif.Names.Lemmas
import Verif.MergePlan.Texts
/- Helper lemmas: deleting words from an ordering clause. -/
set_option autoImplicit false
namespace ML
open Spec

theorem toLower_plain (c x : Char) (hx : ¬ ('a' ≤ x ∧ x ≤ 'z')) (h : c.toLower = x) : c = x := by
  unfold Char.toLower at h
  split at h
  · rename_i hc
    exfalso
    apply hx
    subst h
    have h1 : 65 ≤ c.val.toNat := UInt32.le_iff_toNat_le.mp hc.1
    have h2 : c.val.toNat ≤ 90 := UInt32.le_iff_toNat_le.mp hc.2
    constructor
    · show (97 : UInt32) ≤ c.val + 32
      rw [UInt32.le_iff_toNat_le, UInt32.toNat_add]
      simp only [UInt32.reduceToNat]
      omega
    · show c.val + 32 ≤ (122 : UInt32)
      rw [UInt32.le_iff_toNat_le, UInt32.toNat_add]
      simp only [UInt32.reduceToNat]
      omega
  · exact h

theorem isSpace_toLower (c : Char) (h : isSpace c = false) : isSpace c.toLower = false := by
  by_contra hn
  simp only [isSpace, Bool.not_eq_false, Bool.or_eq_true, decide_eq_true_eq] at hn
  rcases hn with ((hn | hn) | hn) | hn
  all_goals
    have := toLower_plain c _ (by decide) hn
    subst this
    exact absurd h (by decide)

theorem replace_over (old new g r : List Char) (h : ∀ s, s <:+ g → s ≠ [] → ¬ old <+: s ++ r) :
    replaceAll old new (g ++ r) = g ++ replaceAll old new r := by
  induction g with
  | nil => rfl
  | cons c cs ih =>
    have h0 := h (c :: cs) (List.suffix_refl _) (by simp)
    have hf : old.isPrefixOf (c :: (cs ++ r)) = false := by
      rw [Bool.eq_false_iff]
      intro hh
      exact h0 (List.isPrefixOf_iff_prefix.mp hh)
    show replaceGo old new 0 (c :: (cs ++ r)) = c :: (cs ++ replaceAll old new r)
    simp only [replaceGo, hf, Bool.false_eq_true, if_false]
    rw [← ih (fun s hs => h s (hs.trans (List.suffix_cons c cs)))]
    rfl

theorem prefix_of_not_mem (x : Char) (old s t : List Char) (hx : x ∉ old) (h : old <+: s ++ x :: t) : old <+: s := by
  induction s generalizing old with
  | nil =>
    cases old with
    | nil => exact List.nil_prefix
    | cons o os =>
      rw [List.nil_append, List.cons_prefix_cons] at h
      exact absurd (by simp [h.1]) hx
  | cons c cs ih =>
    cases old with
    | nil => exact List.nil_prefix
    | cons o os =>
      rw [List.cons_append, List.cons_prefix_cons] at h
      rw [List.cons_prefix_cons]
      exact ⟨h.1, ih os (fun hm => hx (List.mem_cons_of_mem _ hm)) h.2⟩

theorem rest_of_prefix (x : Char) (w v s t : List Char) (hw : x ∉ w) (hs : x ∉ s) (h : w ++ x :: v <+: s ++ x :: t) : v <+: t := by
  induction s generalizing w with
  | nil =>
    cases w with
    | nil =>
      rw [List.nil_append, List.nil_append, List.cons_prefix_cons] at h
      exact h.2
    | cons o os =>
      rw [List.cons_append, List.nil_append, List.cons_prefix_cons] at h
      exact absurd (by simp [h.1]) hw
  | cons c cs ih =>
    cases w with
    | nil =>
      rw [List.cons_append, List.nil_append, List.cons_prefix_cons] at h
      exact absurd (by simp [h.1]) hs
    | cons o os =>
      rw [List.cons_append, List.cons_append, List.cons_prefix_cons] at h
      exact ih os (fun hm => hw (List.mem_cons_of_mem _ hm)) (fun hm => hs (List.mem_cons_of_mem _ hm)) h.2

theorem prefix_of_trail (j : ℕ) (old s : List Char) (x : Char) (hx : old.getLast? = some x) (hne : x ≠ ' ')
    (h : old <+: s ++ List.replicate j ' ') : old <+: s := by
  obtain ⟨o, rfl⟩ := List.getLast?_eq_some_iff.mp hx
  rcases Nat.lt_or_ge s.length (o ++ [x]).length with hl | hl
  · exfalso
    have h1 : s <+: o ++ [x] := List.prefix_of_prefix_length_le (List.prefix_append _ _) h (Nat.le_of_lt hl)
    obtain ⟨u, hu⟩ := h1
    rw [← hu] at h
    rw [List.prefix_append_right_inj] at h
    have hul : u ≠ [] := by
      intro e
      rw [e, List.append_nil] at hu
      rw [hu] at hl
      exact absurd hl (Nat.lt_irrefl _)
    have hlast : x ∈ u := by
      have := congrArg List.getLast? hu
      rw [List.getLast?_append_of_ne_nil _ hul, List.getLast?_append_of_ne_nil _ (by simp)] at this
      exact List.mem_of_getLast? (by simpa using this)
    exact hne (List.eq_of_mem_replicate (h.subset hlast))
  · exact List.prefix_of_prefix_length_le h (List.prefix_append _ _) hl

theorem replaceGo_trail (j k : ℕ) (old new a : List Char) (x : Char) (hx : old.getLast? = some x) (hne : x ≠ ' ') (hk : k ≤ a.length) :
    replaceGo old new k (a ++ List.replicate j ' ') = replaceGo old new k a ++ List.replicate j ' ' := by
  induction a generalizing k with
  | nil =>
    cases k with
    | succ k => exact absurd hk (by simp)
    | zero =>
      have := replace_over old new (List.replicate j ' ') [] (by
        intro s hs hs0 hp
        rw [List.append_nil] at hp
        have : x ∈ s := hp.subset (List.mem_of_getLast? hx)
        exact hne (List.eq_of_mem_replicate (hs.subset this)))
      simpa [replaceAll, replaceGo] using this
  | cons c cs ih =>
    cases k with
    | succ k =>
      simp only [List.cons_append, replaceGo]
      exact ih k (by simpa using hk)
    | zero =>
      have hp : old.isPrefixOf (c :: (cs ++ List.replicate j ' ')) = old.isPrefixOf (c :: cs) := by
        rw [Bool.eq_iff_iff, List.isPrefixOf_iff_prefix, List.isPrefixOf_iff_prefix]
        constructor
        · intro h
          exact prefix_of_trail j old (c :: cs) x hx hne h
        · intro h
          exact h.trans (List.prefix_append (c :: cs) _)
      simp only [List.cons_append, replaceGo, hp]
      cases hh : old.isPrefixOf (c :: cs) with
      | true =>
        have hl := (List.isPrefixOf_iff_prefix.mp hh).length_le
        simp only [List.length_cons] at hl
        simp only [if_true, ih _ (show old.length - 1 ≤ cs.length by omega), List.append_assoc]
      | false => simp only [Bool.false_eq_true, if_false, ih 0 (Nat.zero_le _), List.cons_append]

theorem replace_trail (j : ℕ) (old new a : List Char) (x : Char) (hx : old.getLast? = some x) (hne : x ≠ ' ') :
    replaceAll old new (a ++ List.replicate j ' ') = replaceAll old new a ++ List.replicate j ' ' :=
  replaceGo_trail j 0 old new a x hx hne (Nat.zero_le _)

theorem replace_lead (k : ℕ) (old new a : List Char) (x : Char) (hx : old.head? = some x) (hne : x ≠ ' ') :
    replaceAll old new (List.replicate k ' ' ++ a) = List.replicate k ' ' ++ replaceAll old new a := by
  apply replace_over
  intro s hs hs0 hp
  cases s with
  | nil => exact hs0 rfl
  | cons c cs =>
    cases old with
    | nil => simp at hx
    | cons o os =>
      simp only [List.head?_cons, Option.some.injEq] at hx
      rw [List.cons_append, List.cons_prefix_cons] at hp
      have : c = ' ' := List.eq_of_mem_replicate (hs.subset (by simp))
      exact hne (by rw [← hx, hp.1, this])

/-- Text between spaces: leading spaces, a word, the rest, trailing spaces. -/
def around (k j : ℕ) (g r : List Char) : List Char := List.replicate k ' ' ++ (g ++ (r ++ List.replicate j ' '))

theorem replace_word (k j : ℕ) (old g r : List Char) (x y : Char) (hx : old.head? = some x) (hxs : x ≠ ' ')
    (hy : old.getLast? = some y) (hys : y ≠ ' ') (hsp : ' ' ∉ old) (hg : ¬ old <:+: g) (hr : r = [] ∨ ∃ t, r = ' ' :: t) :
    replaceAll old [] (around k j g r) = around k j g (replaceAll old [] r) := by
  rw [around, replace_lead _ _ _ _ x hx hxs, ← List.append_assoc g, replace_trail _ _ _ _ y hy hys, replace_over, List.append_assoc]
  · rfl
  · intro s hs _ hp
    apply hg
    rcases hr with rfl | ⟨t, rfl⟩
    · rw [List.append_nil] at hp
      exact hp.isInfix.trans hs.isInfix
    · exact (prefix_of_not_mem _ _ _ _ hsp hp).isInfix.trans hs.isInfix

theorem replace_nulls (k j : ℕ) (w v g r : List Char) (x y : Char) (hx : w.head? = some x) (hxs : x ≠ ' ')
    (hy : v.getLast? = some y) (hys : y ≠ ' ') (hsp : ' ' ∉ w) (hg : ' ' ∉ g)
    (hr : r = [] ∨ ∃ t, r = ' ' :: t ∧ v.isPrefixOf t = false) :
    replaceAll (w ++ ' ' :: v) [] (around k j g r) = around k j g (replaceAll (w ++ ' ' :: v) [] r) := by
  have hvn : v ≠ [] := by rintro rfl; simp at hy
  rw [around, replace_lead _ _ _ _ x (by cases w <;> simp_all) hxs, ← List.append_assoc g,
    replace_trail _ _ _ _ y (by rw [List.getLast?_append_of_ne_nil _ (by simp), List.getLast?_cons_of_ne_nil hvn]; exact hy) hys,
    replace_over, List.append_assoc]
  · rfl
  · intro s hs _ hp
    have hs' : ' ' ∉ s := fun hm => hg (hs.subset hm)
    rcases hr with rfl | ⟨t, rfl, ht⟩
    · rw [List.append_nil] at hp
      exact hs' (hp.subset (by simp))
    · have := rest_of_prefix ' ' w v s t hsp hs' hp
      rw [← List.isPrefixOf_iff_prefix, ht] at this
      exact absurd this (by simp)

theorem dropWhile_lead (k : ℕ) (a : List Char) : (List.replicate k ' ' ++ a).dropWhile isSpace = a.dropWhile isSpace := by
  induction k with
  | zero => rfl
  | succ k ih =>
    rw [List.replicate_succ, List.cons_append, List.dropWhile_cons_of_pos (by decide), ih]

theorem strip_around (k j i : ℕ) (g : List Char) (hg : ∀ c ∈ g, isSpace c = false) :
    strip (around k j g (List.replicate i ' ')) = g := by
  have e : around k j g (List.replicate i ' ') = List.replicate k ' ' ++ (g ++ List.replicate (i + j) ' ') := by
    rw [around, List.replicate_append_replicate]
  rw [e, strip, dropWhile_lead]
  cases g with
  | nil =>
    have := dropWhile_lead (i + j) []
    rw [List.append_nil] at this
    simp [this]
  | cons c cs =>
    rw [List.cons_append, List.dropWhile_cons_of_neg (by rw [hg c (by simp)]; simp), ← List.cons_append, List.reverse_append,
      List.reverse_replicate, dropWhile_lead]
    cases hr : (c :: cs).reverse with
    | nil => simp at hr
    | cons d ds =>
      have hd : d ∈ c :: cs := by rw [← List.mem_reverse, hr]; simp
      rw [List.dropWhile_cons_of_neg (by rw [hg d hd]; simp), ← hr, List.reverse_reverse]

theorem suffix_append_cases (u a b : List Char) (h : u <:+ a ++ b) : u <:+ b ∨ ∃ s, u = s ++ b ∧ s <:+ a := by
  obtain ⟨p, hp⟩ := h
  rw [List.append_eq_append_iff] at hp
  rcases hp with ⟨s, h1, h2⟩ | ⟨s, h1, h2⟩
  · exact .inr ⟨s, h2, p, h1.symm⟩
  · exact .inl ⟨s, h2.symm⟩

theorem infix_around (k j : ℕ) (old g r : List Char) (x y : Char) (hx : old.head? = some x) (hxs : x ≠ ' ')
    (hy : old.getLast? = some y) (hys : y ≠ ' ') (hsp : ' ' ∉ old) (hg : ¬ old <:+: g) (hr : r = [] ∨ ∃ t, r = ' ' :: t)
    (hrn : containsSub old r = false) : containsSub old (around k j g r) = false := by
  rw [Bool.eq_false_iff]
  intro h
  rw [containsSub_iff] at h
  obtain ⟨a, b, hab⟩ := h
  -- a suffix of the text begins with `old`; it starts in one of the four parts
  have key : ∀ u, u <:+ around k j g r → ¬ old <+: u := by
    intro u hu hp
    have hon : old ≠ [] := by rintro rfl; simp at hx
    rw [around] at hu
    replace hu := suffix_append_cases _ _ _ hu
    rcases hu with hu | ⟨s, rfl, hs⟩
    · replace hu := suffix_append_cases _ _ _ hu
      rcases hu with hu | ⟨s, rfl, hs⟩
      · replace hu := suffix_append_cases _ _ _ hu
        rcases hu with hu | ⟨s, rfl, hs⟩
        · exact hys (List.eq_of_mem_replicate (hu.subset (hp.subset (List.mem_of_getLast? hy))))
        · have := prefix_of_trail j old s y hy hys hp
          rw [Bool.eq_false_iff] at hrn
          exact hrn ((containsSub_iff _ _).mpr (this.isInfix.trans hs.isInfix))
      · rw [← List.append_assoc] at hp
        have := prefix_of_trail j old _ y hy hys hp
        apply hg
        rcases hr with rfl | ⟨t, rfl⟩
        · rw [List.append_nil] at this
          exact this.isInfix.trans hs.isInfix
        · exact (prefix_of_not_mem _ _ _ _ hsp this).isInfix.trans hs.isInfix
    · cases s with
      | nil =>
        rw [List.nil_append, ← List.append_assoc] at hp
        have := prefix_of_trail j old _ y hy hys hp
        apply hg
        rcases hr with rfl | ⟨t, rfl⟩
        · rw [List.append_nil] at this
          exact this.isInfix
        · exact (prefix_of_not_mem _ _ _ _ hsp this).isInfix
      | cons c cs =>
        cases old with
        | nil => exact hon rfl
        | cons o os =>
          simp only [List.head?_cons, Option.some.injEq] at hx
          rw [List.cons_append, List.cons_prefix_cons] at hp
          have : c = ' ' := List.eq_of_mem_replicate (hs.subset (by simp))
          exact hxs (by rw [← hx, hp.1, this])
  refine key (old ++ b) ⟨a, ?_⟩ (List.prefix_append _ _)
  rw [← hab, List.append_assoc]

theorem desc_around (k j : ℕ) (g r : List Char) (t : List Char) (hr : r = " desc".toList ++ t) :
    containsSub "desc".toList (around k j g r) = true := by
  rw [containsSub_iff, around, hr]
  refine ⟨List.replicate k ' ' ++ (g ++ [' ']), t ++ List.replicate j ' ', ?_⟩
  have : " desc".toList = [' '] ++ "desc".toList := by decide
  rw [this]
  simp only [List.append_assoc]

end ML
