import Verif.Mql.Funnels

set_option autoImplicit false

namespace ML
open Spec

theorem replaceAll_absent (t q post : List Char) (h : ∀ a b, post ≠ a ++ (t ++ b)) : replaceAll t q post = post := by
  induction post with
  | nil => rfl
  | cons c post ih =>
    have hp : t.isPrefixOf (c :: post) = false := by
      cases hc : t.isPrefixOf (c :: post) with
      | false => rfl
      | true =>
        obtain ⟨b, hb⟩ := List.isPrefixOf_iff_prefix.mp hc
        exact absurd hb.symm (h [] b)
    unfold replaceAll
    simp only [replaceGo, hp, Bool.false_eq_true, if_false]
    have := ih (fun a b e => h (c :: a) b (by rw [e]; rfl))
    unfold replaceAll at this
    rw [this]

theorem replaceAll_only (pre t q post : List Char) (ht : t ≠ []) (h : OnlyThere pre t post) :
    replaceAll t q (pre ++ (t ++ post)) = pre ++ (q ++ post) := by
  induction pre with
  | nil =>
    rw [List.nil_append, List.nil_append, replace_match _ _ _ ht, replaceAll_absent]
    intro a b e
    have := h (t ++ a) b (by rw [e]; simp)
    exact ht (List.append_eq_nil_iff.mp this).1
  | cons c pre ih =>
    have hp : t.isPrefixOf (c :: (pre ++ (t ++ post))) = false := by
      cases hc : t.isPrefixOf (c :: (pre ++ (t ++ post))) with
      | false => rfl
      | true =>
        obtain ⟨b, hb⟩ := List.isPrefixOf_iff_prefix.mp hc
        have := h [] b (by rw [List.nil_append, hb]; rfl)
        cases this
    have := ih (fun a b e => by
      have := h (c :: a) b (by rw [List.cons_append, e]; rfl)
      exact (List.cons.inj this).2)
    unfold replaceAll at this ⊢
    rw [List.cons_append]
    simp only [replaceGo, hp, Bool.false_eq_true, if_false, this]
    rfl

theorem callIn_mql (c : MqlCall) : callIn.IsMql c = true ↔ upper c.name = "MQL" := by
  unfold callIn.IsMql
  rw [decide_eq_true_eq, upper_eq_iff]
  rfl

theorem convertTop_stays (env : MqlEnv) (sql conv : String) (t : Top) (h : Stays t) : convertTop env sql conv t = .ok conv := by
  obtain ⟨hc, hi⟩ := h
  have hn : ∀ c, callIn.IsMql c = false → parseAndResolve env sql c = .ok none := by
    intro c h
    unfold parseAndResolve
    rw [if_neg (fun e => by rw [(callIn_mql c).mpr e] at h; cases h)]
  cases t with
  | other s => rfl
  | call c =>
    have h1 : callIn.IsMql c = false := by
      cases hm : callIn.IsMql c with
      | false => rfl
      | true => simp [callIn, hm] at hc
    simp only [convertTop]
    rw [hn c h1]
    rfl
  | ident s hd =>
    obtain ⟨h1, h2⟩ := hi s hd rfl
    simp only [convertTop]
    rw [if_neg (fun e => h1 ((upper_eq_iff _ _).mp e))]
    split
    · cases hd with
      | leaf => exact absurd rfl h2
      | group => rfl
      | call c =>
        have h1 : callIn.IsMql c = false := by
          cases hm : callIn.IsMql c with
          | false => rfl
          | true => simp [callIn, hm] at hc
        simp only
        rw [hn c h1]
        rfl
    · rfl

theorem containsSub_prefix (sub : List Char) (l r : List Char) (h : sub <+: l) : containsSub sub (l ++ r) = true := by
  obtain ⟨b, rfl⟩ := h
  rw [containsSub_iff]
  exact ⟨[], b ++ r, by simp⟩

theorem convertTop_has (env : MqlEnv) (sql conv : String) (t : Top) (c : MqlCall) (al q : String) (h : Has t c al)
    (hq : resolveMql env c.args = .ok q) :
    convertTop env sql conv t = .ok (putIn conv c.text (some (if c.text ≠ sql then "(" ++ q ++ ")" else q))) := by
  obtain ⟨hc, hct, ht⟩ := h
  have hm : upper c.name = "MQL" := by
    rw [← callIn_mql]
    rcases ht with ⟨rfl, _⟩ | ⟨rfl, _⟩ <;>
    · cases hm : callIn.IsMql c with
      | true => rfl
      | false => simp [callIn, hm] at hc
  have hp : parseAndResolve env sql c = .ok (some (if c.text ≠ sql then "(" ++ q ++ ")" else q)) := by
    unfold parseAndResolve
    rw [if_pos hm, hq]
    rfl
  rcases ht with ⟨rfl, _⟩ | ⟨rfl, hw⟩
  · simp only [convertTop]
    rw [hp]; rfl
  · show (if upper (c.text ++ al) = "MQL" then _ else if containsSub "MQL(".toList (upper (c.text ++ al)).toList then
      (parseAndResolve env sql c).bind (fun q => Except.ok (putIn conv c.text q)) else _) = _
    rw [if_neg (fun e => hw ((upper_eq_iff _ _).mp e)), if_pos]
    · rw [hp]; rfl
    · have e : (upper (c.text ++ al)).toList = c.text.toList.map Char.toUpper ++ al.toList.map Char.toUpper := by simp [upper]
      rw [e]
      exact containsSub_prefix "MQL(".toList _ _ hct

theorem callText_ne (c : MqlCall) (h : CallText c) : c.text.toList ≠ [] := by
  intro e
  unfold CallText at h
  rw [e] at h
  obtain ⟨b, hb⟩ := h
  simp at hb

theorem ofList_toList_eq (a b : String) (h : a.toList = b.toList) : a = b := String.toList_inj.mp h

/-- The text of many texts. -/
def flatText (l : List String) : List Char := l.flatMap String.toList

theorem convertAll_puts (env : MqlEnv) (sql : String) (rest : List Char) (l : List (Top × String)) (done : List Char)
    (hb : ∀ p ∈ l, Becomes env sql p.1 p.2)
    (ho : ∀ a p b c al, l = a ++ p :: b → Has p.1 c al →
      OnlyThere (done ++ flatText (a.map (·.2))) c.text.toList (al.toList ++ (flatText (b.map (·.1.text)) ++ rest))) :
    convertAll env sql (String.ofList (done ++ (flatText (l.map (·.1.text)) ++ rest))) (l.map (·.1)) =
      .ok (String.ofList (done ++ (flatText (l.map (·.2)) ++ rest))) := by
  induction l generalizing done with
  | nil => rfl
  | cons p l ih =>
    have hs : ∀ conv, convertAll env sql conv ((p :: l).map (·.1)) =
        (convertTop env sql conv p.1).bind (fun conv => convertAll env sql conv (l.map (·.1))) := fun _ => rfl
    rw [hs]
    have ih' := ih (done ++ p.2.toList) (fun q hq => hb q (List.mem_cons_of_mem _ hq))
      (fun a r b c al e hh => by
        have := ho (p :: a) r b c al (by rw [e]; rfl) hh
        simpa [flatText] using this)
    have hgoal : String.ofList (done ++ p.2.toList ++ (flatText (l.map (·.1.text)) ++ rest)) =
        String.ofList (done ++ (p.2.toList ++ (flatText (l.map (·.1.text)) ++ rest))) := by simp
    have hgoal2 : String.ofList (done ++ p.2.toList ++ (flatText (l.map (·.2)) ++ rest)) =
        String.ofList (done ++ (flatText ((p :: l).map (·.2)) ++ rest)) := by simp [flatText]
    rw [hgoal, hgoal2] at ih'
    rcases hb p (by simp) with ⟨hst, ho2⟩ | ⟨c, al, q, hh, hq, hne, hout⟩
    · rw [convertTop_stays env sql _ p.1 hst]
      show convertAll _ _ _ _ = _
      rw [← ih']
      congr 2
      rw [ho2]
      simp [flatText]
    · rw [convertTop_has env sql _ p.1 c al q hh hq]
      show convertAll _ _ _ _ = _
      rw [← ih']
      congr 1
      have ht : p.1.text.toList = c.text.toList ++ al.toList := by
        rcases hh.2.2 with ⟨e, e2⟩ | ⟨e, _⟩
        · rw [e, e2]; simp [Top.text]
        · rw [e]; simp [Top.text]
      have hne' : (if c.text ≠ sql then "(" ++ q ++ ")" else q) ≠ "" := by
        split
        · intro e
          have := congrArg String.toList e
          simp at this
        · exact hne
      unfold putIn
      simp only
      rw [if_neg hne', String.toList_ofList]
      have e1 : done ++ (flatText ((p :: l).map (·.1.text)) ++ rest) =
          done ++ (c.text.toList ++ (al.toList ++ (flatText (l.map (·.1.text)) ++ rest))) := by
        simp [flatText, ht]
      have hot := ho [] p l c al rfl hh
      rw [show done ++ flatText (List.map (fun x => x.2) ([] : List (Top × String))) = done from by simp [flatText]] at hot
      rw [e1, replaceAll_only _ _ _ _ (callText_ne c hh.2.1) hot, hout]
      congr 1
      by_cases hcs : c.text = sql <;> simp [hcs]

end ML
