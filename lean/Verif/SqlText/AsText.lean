import Verif.SqlText.Spec
/-
The text ` as ` in columns: what `split`, `replace` and the pattern `(?i) as ` find in a text that ends in ` as alias`.
-/
set_option autoImplicit false
namespace ML
open Spec

/-- A text ` as ` in some case. -/
def AsSep (sep : List Char) : Prop := ∃ x y, sep = [' ', x, y, ' '] ∧ sep.map Char.toLower = " as ".toList

theorem asLit : " as ".toList = [' ', 'a', 's', ' '] := by decide +kernel

theorem asSep_low : AsSep " as ".toList := ⟨'a', 's', by decide +kernel, by decide +kernel⟩

theorem asSep_up : AsSep " AS ".toList := ⟨'A', 'S', by decide +kernel, by decide +kernel⟩

theorem take_four {sep : List Char} (hsep : AsSep sep) (e r a : List Char) (hr : r ≠ []) (he : NoAsEnd e) (hsuf : r <:+ e) :
    (((r ++ (sep ++ a)).take 4).map Char.toLower = [' ', 'a', 's', ' '] → 4 ≤ r.length) ∧ (4 ≤ r.length → (r ++ (sep ++ a)).take 4 = r.take 4) := by
  obtain ⟨x, y, rfl, hlow⟩ := hsep
  refine ⟨?_, fun h => List.take_append_of_le_length h⟩
  have hsp : Char.toLower ' ' = ' ' := by decide
  match r, hr with
  | [p], _ => intro h; simp [hsp] at h
  | [p, q], _ => intro h; simp [hsp] at h
  | [p, q, s], _ =>
    intro h
    simp at h
    exfalso
    apply he
    have := hsuf.map Char.toLower
    simp only [List.map_cons, List.map_nil, h.1, h.2.1, h.2.2] at this
    exact this
  | p :: q :: s :: t :: r', _ => intro _; simp

theorem prefix_take {sep t : List Char} (hl : sep.length = 4) : sep.isPrefixOf t = true ↔ t.take 4 = sep := by
  rw [List.isPrefixOf_iff_prefix, List.prefix_iff_eq_take, hl]
  exact eq_comm

theorem asSep_length {sep : List Char} (h : AsSep sep) : sep.length = 4 := by
  obtain ⟨x, y, rfl, -⟩ := h
  rfl

theorem prefix_before {sep : List Char} (hsep : AsSep sep) (sep' : List Char) (hsep' : AsSep sep') (e r a : List Char) (hr : r ≠ []) (he : NoAsEnd e)
    (hsuf : r <:+ e) : sep'.isPrefixOf (r ++ (sep ++ a)) = sep'.isPrefixOf r := by
  have h := take_four hsep e r a hr he hsuf
  rw [Bool.eq_iff_iff, prefix_take (asSep_length hsep'), prefix_take (asSep_length hsep')]
  constructor
  · intro ht
    have h4 := h.1 (by rw [ht]; obtain ⟨x, y, rfl, hl⟩ := hsep'; rw [hl]; exact asLit)
    rw [← h.2 h4, ht]
  · intro ht
    have h4 : 4 ≤ r.length := by
      have := congrArg List.length ht
      rw [asSep_length hsep', List.length_take] at this
      omega
    rw [h.2 h4, ht]

theorem low_before {sep : List Char} (hsep : AsSep sep) (e r a : List Char) (hr : r ≠ []) (he : NoAsEnd e) (hsuf : r <:+ e) :
    (((r ++ (sep ++ a)).take 4).map Char.toLower = " as ".toList ↔ (r.take 4).map Char.toLower = " as ".toList) := by
  have h := take_four hsep e r a hr he hsuf
  rw [asLit]
  constructor
  · intro ht
    rw [← h.2 (h.1 ht), ht]
  · intro ht
    have h4 : 4 ≤ r.length := by
      have := congrArg List.length ht
      simp at this
      omega
    rw [h.2 h4, ht]

theorem lower_space {c : Char} (h : c.toLower = ' ') : c = ' ' := by
  unfold Char.toLower at h
  split_ifs at h with hu
  · exfalso
    have hv := congrArg Char.val h
    simp only [] at hv
    obtain ⟨h1, h2⟩ := hu
    have h1' : (65 : ℕ) ≤ c.val.toNat := by simpa using UInt32.le_iff_toNat_le.mp h1
    have h2' : c.val.toNat ≤ 90 := by simpa using UInt32.le_iff_toNat_le.mp h2
    have := congrArg UInt32.toNat hv
    rw [UInt32.toNat_add] at this
    have hcv : c.toNat = c.val.toNat := rfl
    simp at this
    omega
  · exact h

theorem asSep_of_lower {m : List Char} (h : m.map Char.toLower = " as ".toList) : AsSep m := by
  have h' := h
  rw [asLit] at h'
  match m with
  | [p, q, r, s] =>
    simp only [List.map_cons, List.map_nil, List.cons.injEq, and_true] at h'
    have h1 := lower_space h'.1
    have h2 := lower_space h'.2.2.2
    subst h1 h2
    exact ⟨q, r, rfl, h⟩
  | [] => simp at h'
  | [_] => simp at h'
  | [_, _] => simp at h'
  | [_, _, _] => simp at h'
  | _ :: _ :: _ :: _ :: _ :: _ => simp at h'

theorem findAs_infix : ∀ (e : List Char) (n : ℕ) (m : List Char), m ∈ findAs n e → m <:+: e ∧ m.map Char.toLower = " as ".toList := by
  intro e
  induction e with
  | nil => intro n m h; cases n <;> simp [findAs] at h
  | cons c cs ih =>
    intro n m h
    cases n with
    | succ n =>
      obtain ⟨h1, h2⟩ := ih n m h
      exact ⟨h1.trans (List.suffix_cons c cs).isInfix, h2⟩
    | zero =>
      simp only [findAs] at h
      split_ifs at h with hm
      · rcases List.mem_cons.mp h with rfl | h
        · exact ⟨(List.take_prefix 4 (c :: cs)).isInfix, hm⟩
        · obtain ⟨h1, h2⟩ := ih 3 m h
          exact ⟨h1.trans (List.suffix_cons c cs).isInfix, h2⟩
      · obtain ⟨h1, h2⟩ := ih 0 m h
        exact ⟨h1.trans (List.suffix_cons c cs).isInfix, h2⟩

/-! ### split -/

theorem splitGo_free (sep : List Char) (hsep : AsSep sep) (cur a : List Char) (ha : ' ' ∉ a) :
    splitGo sep 0 cur a = [cur.reverse ++ a] := by
  induction a generalizing cur with
  | nil => simp [splitGo]
  | cons c cs ih =>
    have hc : ' ' ≠ c := fun e => ha (List.mem_cons.mpr (Or.inl e))
    have : sep.isPrefixOf (c :: cs) = false := by
      obtain ⟨x, y, rfl, -⟩ := hsep
      simp [List.isPrefixOf, hc]
    simp only [splitGo, this, Bool.false_eq_true, if_false]
    rw [ih _ (fun h => ha (by simp [h]))]
    simp

theorem splitGo_end (sep : List Char) (hsep : AsSep sep) (cur a : List Char) (ha : ' ' ∉ a) :
    splitGo sep 0 cur (sep ++ a) = [cur.reverse, a] := by
  obtain ⟨x, y, rfl, hl⟩ := hsep
  have hx : splitGo [' ', x, y, ' '] 0 [] a = [a] := by
    have := splitGo_free [' ', x, y, ' '] ⟨x, y, rfl, hl⟩ [] a ha
    simpa using this
  simp [splitGo, List.isPrefixOf, hx]

theorem splitGo_skip_append (sep : List Char) (n : ℕ) (cur r t : List Char) (h : n ≤ r.length) :
    splitGo sep n cur (r ++ t) = splitGo sep 0 cur (r.drop n ++ t) := by
  induction n generalizing r with
  | zero => rfl
  | succ n ih =>
    cases r with
    | nil => simp at h
    | cons c cs =>
      simp only [List.cons_append, splitGo, List.drop_succ_cons]
      exact ih cs (by simpa using h)

theorem splitGo_skip (sep : List Char) (n : ℕ) (cur r : List Char) : splitGo sep n cur r = splitGo sep 0 cur (r.drop n) := by
  induction n generalizing r with
  | zero => rfl
  | succ n ih =>
    cases r with
    | nil => simp [splitGo]
    | cons c cs =>
      simp only [splitGo, List.drop_succ_cons]
      exact ih cs

theorem splitGo_last (sep : List Char) (hsep : AsSep sep) (e a : List Char) (he : NoAsEnd e) (ha : ' ' ∉ a) (n : ℕ) :
    ∀ (cur r : List Char), r.length ≤ n → r <:+ e →
      splitGo sep 0 cur (r ++ (sep ++ a)) = splitGo sep 0 cur r ++ [a] := by
  induction n with
  | zero =>
    intro cur r hr _
    have : r = [] := List.length_eq_zero_iff.mp (by omega)
    subst this
    rw [List.nil_append, splitGo_end sep hsep cur a ha]
    rfl
  | succ n ih =>
    intro cur r hr hsuf
    cases r with
    | nil =>
      rw [List.nil_append, splitGo_end sep hsep cur a ha]
      rfl
    | cons c cs =>
      have hp := prefix_before hsep sep hsep e (c :: cs) a (by simp) he hsuf
      rw [List.cons_append] at hp ⊢
      have hcs : cs <:+ e := (List.suffix_cons c cs).trans hsuf
      simp only [splitGo, hp]
      split_ifs with hm
      · have hl : 3 ≤ cs.length := by
          have := List.isPrefixOf_iff_prefix.mp hm
          have := this.length_le
          rw [asSep_length hsep] at this
          simpa using this
        have h3 : sep.length - 1 = 3 := by rw [asSep_length hsep]
        rw [h3, splitGo_skip_append _ _ _ _ _ hl, splitGo_skip sep 3 [] cs,
          ih [] (cs.drop 3) (by simp only [List.length_drop, List.length_cons] at *; omega) ((List.drop_suffix 3 cs).trans hcs)]
        rfl
      · exact ih (c :: cur) cs (by simp only [List.length_cons] at hr; omega) hcs

/-- The last part of a column is its alias. -/
theorem afterLastAs_column (c : List Char × List Char) (he : NoAsEnd c.1) (ha : ' ' ∉ c.2) : afterLastAs (aliasedColumn c) = c.2 := by
  unfold afterLastAs aliasedColumn
  rw [List.append_assoc, splitGo_last " as ".toList asSep_low c.1 c.2 he ha c.1.length [] c.1 (le_refl _) (List.suffix_refl _)]
  simp

theorem splitGo_ne (sep : List Char) : ∀ (t cur : List Char) (n : ℕ), splitGo sep n cur t ≠ [] := by
  intro t
  induction t with
  | nil => intro cur n; cases n <;> simp [splitGo]
  | cons c cs ih =>
    intro cur n
    cases n with
    | zero =>
      simp only [splitGo]
      split_ifs
      · simp
      · exact ih _ _
    | succ n => exact ih _ _

/-- The parts joined again give the text. -/
theorem joinWith_splitGo (sep : List Char) (hsep : AsSep sep) (n : ℕ) : ∀ cur t : List Char, t.length ≤ n →
    joinWith sep (splitGo sep 0 cur t) = cur.reverse ++ t := by
  induction n with
  | zero =>
    intro cur t ht
    have : t = [] := List.length_eq_zero_iff.mp (by omega)
    subst this
    simp [splitGo, joinWith]
  | succ n ih =>
    intro cur t ht
    cases t with
    | nil => simp [splitGo, joinWith]
    | cons c cs =>
      simp only [splitGo]
      split_ifs with hm
      · have h3 : sep.length - 1 = 3 := by rw [asSep_length hsep]
        rw [h3, splitGo_skip]
        have hi := ih [] (cs.drop 3) (by simp only [List.length_drop, List.length_cons] at *; omega)
        obtain ⟨x, r, hx⟩ : ∃ x r, splitGo sep 0 [] (cs.drop 3) = x :: r := by
          cases e : splitGo sep 0 [] (cs.drop 3) with
          | nil => exact absurd e (splitGo_ne _ _ _ _)
          | cons x r => exact ⟨x, r, rfl⟩
        rw [hx] at hi ⊢
        simp only [joinWith]
        rw [hi]
        obtain ⟨u, hu⟩ := List.isPrefixOf_iff_prefix.mp hm
        have : cs.drop 3 = u := by
          have h4 := congrArg (List.drop 4) hu
          rw [List.drop_left' (asSep_length hsep)] at h4
          simpa using h4.symm
        rw [this, ← hu]
        simp
      · rw [ih (c :: cur) cs (by simp only [List.length_cons] at ht; omega)]
        simp

/-! ### findall and replace -/

theorem findAs_skip_append (n : ℕ) (r t : List Char) (h : n ≤ r.length) : findAs n (r ++ t) = findAs 0 (r.drop n ++ t) := by
  induction n generalizing r with
  | zero => rfl
  | succ n ih =>
    cases r with
    | nil => simp at h
    | cons c cs =>
      simp only [List.cons_append, findAs, List.drop_succ_cons]
      exact ih cs (by simpa using h)

theorem findAs_skip (n : ℕ) (r : List Char) : findAs n r = findAs 0 (r.drop n) := by
  induction n generalizing r with
  | zero => rfl
  | succ n ih =>
    cases r with
    | nil => simp [findAs]
    | cons c cs =>
      simp only [findAs, List.drop_succ_cons]
      exact ih cs

theorem findAs_free (a : List Char) (ha : ' ' ∉ a) : findAs 0 a = [] := by
  induction a with
  | nil => rfl
  | cons c cs ih =>
    have hc : c ≠ ' ' := fun e => ha (by simp [e])
    have hl : c.toLower ≠ ' ' := fun h => hc (lower_space h)
    have : ¬ ((c :: cs).take 4).map Char.toLower = " as ".toList := by
      rw [asLit]
      simp [hl]
    simp only [findAs, this, if_false]
    exact ih (fun h => ha (by simp [h]))

theorem findAs_end (sep : List Char) (hsep : AsSep sep) (a : List Char) (ha : ' ' ∉ a) : findAs 0 (sep ++ a) = [sep] := by
  obtain ⟨x, y, rfl, hl⟩ := hsep
  have h1 : (([' ', x, y, ' '] ++ a).take 4).map Char.toLower = " as ".toList := by
    rw [← hl]
    rfl
  simp only [List.cons_append, List.nil_append] at h1 ⊢
  simp only [findAs, h1, if_true, findAs_free a ha]
  rfl

theorem findAs_last (sep : List Char) (hsep : AsSep sep) (e a : List Char) (he : NoAsEnd e) (ha : ' ' ∉ a) (n : ℕ) :
    ∀ r : List Char, r.length ≤ n → r <:+ e → findAs 0 (r ++ (sep ++ a)) = findAs 0 r ++ [sep] := by
  induction n with
  | zero =>
    intro r hr _
    have : r = [] := List.length_eq_zero_iff.mp (by omega)
    subst this
    rw [List.nil_append, findAs_end sep hsep a ha]
    rfl
  | succ n ih =>
    intro r hr hsuf
    cases r with
    | nil =>
      rw [List.nil_append, findAs_end sep hsep a ha]
      rfl
    | cons c cs =>
      have hp := low_before hsep e (c :: cs) a (by simp) he hsuf
      have ht := take_four hsep e (c :: cs) a (by simp) he hsuf
      rw [List.cons_append] at hp ht ⊢
      have hcs : cs <:+ e := (List.suffix_cons c cs).trans hsuf
      simp only [findAs]
      by_cases hm : ((c :: cs).take 4).map Char.toLower = " as ".toList
      · have hl : 4 ≤ (c :: cs).length := by
          have := congrArg List.length hm
          rw [asLit] at this
          simp at this
          simp
          omega
        rw [if_pos (hp.mpr hm), if_pos hm, ht.2 hl]
        have hl' : 3 ≤ cs.length := by simpa using hl
        rw [findAs_skip_append _ _ _ hl', findAs_skip 3 cs,
          ih (cs.drop 3) (by simp only [List.length_drop, List.length_cons] at *; omega) ((List.drop_suffix 3 cs).trans hcs)]
        rfl
      · rw [if_neg (fun h => hm (hp.mp h)), if_neg hm]
        exact ih cs (by simp only [List.length_cons] at hr; omega) hcs

theorem replaceGo_skip_append (old new : List Char) (n : ℕ) (r t : List Char) (h : n ≤ r.length) :
    replaceGo old new n (r ++ t) = replaceGo old new 0 (r.drop n ++ t) := by
  induction n generalizing r with
  | zero => rfl
  | succ n ih =>
    cases r with
    | nil => simp at h
    | cons c cs =>
      simp only [List.cons_append, replaceGo, List.drop_succ_cons]
      exact ih cs (by simpa using h)

/-- A text replaced by itself. -/
theorem replaceAll_self (sep : List Char) (hsep : AsSep sep) (n : ℕ) : ∀ t : List Char, t.length ≤ n → replaceAll sep sep t = t := by
  unfold replaceAll
  induction n with
  | zero =>
    intro t ht
    have : t = [] := List.length_eq_zero_iff.mp (by omega)
    subst this
    rfl
  | succ n ih =>
    intro t ht
    cases t with
    | nil => rfl
    | cons c cs =>
      simp only [replaceGo]
      split_ifs with hm
      · obtain ⟨u, hu⟩ := List.isPrefixOf_iff_prefix.mp hm
        obtain ⟨x, y, rfl, -⟩ := hsep
        simp only [List.cons_append, List.nil_append, List.cons.injEq] at hu
        obtain ⟨rfl, rfl⟩ := hu
        have hu : u.length ≤ n := by simp only [List.length_cons] at ht; omega
        simp only [List.length_cons, List.length_nil, Nat.reduceAdd, Nat.reduceSub, replaceGo]
        rw [ih u hu]
        rfl
      · rw [ih cs (by simp only [List.length_cons] at ht; omega)]

theorem replaceGo_free (sep new : List Char) (hsep : AsSep sep) (a : List Char) (ha : ' ' ∉ a) : replaceGo sep new 0 a = a := by
  induction a with
  | nil => rfl
  | cons c cs ih =>
    have hc : ' ' ≠ c := fun e => ha (List.mem_cons.mpr (Or.inl e))
    have : sep.isPrefixOf (c :: cs) = false := by
      obtain ⟨x, y, rfl, -⟩ := hsep
      simp [List.isPrefixOf, hc]
    simp only [replaceGo, this, Bool.false_eq_true, if_false]
    rw [ih (fun h => ha (by simp [h]))]

/-- The last ` as ` of a text that has no other. -/
theorem replaceAll_last (sep new : List Char) (hsep : AsSep sep) (e a : List Char) (he : NoAsEnd e) (ha : ' ' ∉ a) (hno : ¬ sep <:+: e) :
    replaceAll sep new (e ++ (sep ++ a)) = e ++ (new ++ a) := by
  have : ∀ r : List Char, r <:+ e → replaceGo sep new 0 (r ++ (sep ++ a)) = r ++ (new ++ a) := by
    intro r
    induction r with
    | nil =>
      intro _
      have hf := replaceGo_free sep new hsep a ha
      obtain ⟨x, y, rfl, -⟩ := hsep
      simp [replaceGo, List.isPrefixOf, hf]
    | cons c cs ih =>
      intro hsuf
      have hp := prefix_before hsep sep hsep e (c :: cs) a (by simp) he hsuf
      have hm : sep.isPrefixOf (c :: cs) = false := by
        by_contra h
        simp only [Bool.not_eq_false] at h
        exact hno ((List.isPrefixOf_iff_prefix.mp h).isInfix.trans hsuf.isInfix)
      rw [hm] at hp
      rw [List.cons_append] at hp ⊢
      simp only [replaceGo, hp, Bool.false_eq_true, if_false]
      rw [ih ((List.suffix_cons c cs).trans hsuf)]
      rfl
  exact this e (List.suffix_refl e)

/-- A raw column `expression as alias`, in any case, loses its alias. -/
theorem stripAlias_named (sep : List Char) (hsep : AsSep sep) (e a : List Char) (he : NoAsEnd e) (ha : ' ' ∉ a)
    (hin : ∀ m ∈ findAs 0 e, m = " AS ".toList) (hno : sep = " AS ".toList ∨ ¬ sep <:+: e) : stripAlias (e ++ (sep ++ a)) = e := by
  have hf := findAs_last sep hsep e a he ha e.length e (le_refl _) (List.suffix_refl _)
  have hself : ∀ t : List Char, replaceAll " AS ".toList " AS ".toList t = t := fun t => replaceAll_self _ asSep_up t.length t (le_refl _)
  have hfold : ∀ (ms : List (List Char)) (t : List Char), (∀ m ∈ ms, m = " AS ".toList) →
      ms.foldl (fun text m => replaceAll m " AS ".toList text) t = t := by
    intro ms
    induction ms with
    | nil => intro t _; rfl
    | cons m ms ih =>
      intro t h
      simp only [List.foldl_cons]
      rw [h m (by simp), hself, ih t (fun x hx => h x (by simp [hx]))]
  have hres : (findAs 0 e ++ [sep]).foldl (fun text m => replaceAll m " AS ".toList text) (e ++ (sep ++ a)) = e ++ (" AS ".toList ++ a) := by
    rw [List.foldl_append, hfold _ _ hin]
    simp only [List.foldl_cons, List.foldl_nil]
    rcases hno with rfl | hno
    · exact hself _
    · exact replaceAll_last sep _ hsep e a he ha hno
  unfold stripAlias
  rw [hf]
  cases hc : findAs 0 e ++ [sep] with
  | nil => simp at hc
  | cons m ms =>
    simp only []
    rw [← hc, hres, splitGo_last " AS ".toList asSep_up e a he ha e.length [] e (le_refl _) (List.suffix_refl _), List.dropLast_concat,
      joinWith_splitGo _ asSep_up e.length [] e (le_refl _)]
    rfl

theorem stripAlias_bare (e : List Char) (h : findAs 0 e = []) : stripAlias e = e := by
  unfold stripAlias
  rw [h]

end ML
