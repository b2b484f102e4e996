import Verif.Clone.Props
import Verif.MergePlan.Texts
import Verif.Names.Lemmas
/-
C71: which commands are given and with which key, which branches are offered, what is read by others, and what goes wrong.
-/
set_option autoImplicit false
namespace ML
open Spec

theorem means_cmds {o : GOp} {cs : List GitCmd} (h : MeansGit o cs) : o.cmds = cs := by
  cases h with
  | create b => rfl
  | delete b => rfl
  | commit m b => rfl
  | pull s t => rfl
  | squash s t m hm =>
    have : m.toList.isEmpty = false := by
      cases hl : m.toList with
      | nil => exact absurd (String.toList_eq_nil_iff.1 hl) hm
      | cons a l => rfl
    simp [GOp.cmds, this]
  | squashUnnamed s t m hm =>
    rcases hm with rfl | rfl
    · rfl
    · simp [GOp.cmds]

/-! ### The commands -/

/-- C71. An operation that returned has given git exactly the commands it means, in order, and each of them while the file git was told to take the
key from was there, held exactly the key, and could be read by its owner only. -/
theorem C71_commands (r : GRepo) (o : GOp) (cs : List GitCmd) (hm : MeansGit o cs) (k : PyKey) (hk : k.truthy = true) (p : String) (f : Fetched)
    (fate : Fate) (w w' : CWorld) (hw : w.fetched = some f) (hp : f.filePath = some p) (h : gcall r (.op o (some k)) fate w = (.ok (), w')) :
    ∃ b, k = .bytes b ∧ w'.given = w.given ++ cs.map (fun c => ⟨c, some p, some (.file b true)⟩) ∧ w'.disk p = none := by
  simp only [gcall] at h
  unfold sshWrapped at h
  rw [hw] at h
  simp only [hp, Option.filter, hk, if_true] at h
  obtain ⟨_, w1, h1, hrun⟩ := andThen_ok h
  obtain ⟨b, rfl, hb⟩ := writeKey_ok h1
  rcases orElse_ok hrun with hrun | ⟨e, w2, -, hrun⟩
  · obtain ⟨⟨⟩, w2, h2, h3⟩ := andThen_ok hrun
    obtain ⟨hd, -, t, hg, -, ht⟩ := gits_any h2
    have hrest := keeps_rest_write w r.buffer (.bytes b) p fate w .rfl
    rw [h1] at hrest
    obtain ⟨hn, hs⟩ := remove_ok h3
    have hkey : w1.disk p = some (.file b true) := by
      rcases hb with hb | hb
      · exact hb
      · rw [hd] at hs; exact absurd hb hs
    have hrm := keeps_rest_remove w2 p fate w2 .rfl
    rw [h3] at hrm
    refine ⟨b, rfl, ?_, hn⟩
    rw [hrm.1, hg, hrest.1, ht () rfl, means_cmds hm]
    simp [hkey]
  · obtain ⟨_, w3, -, hr⟩ := andThen_ok hrun
    exact nomatch (Prod.mk.inj hr).1

/-- C71. Without a key (or with an empty one), or over HTTPS, an operation that returned has given the same commands, and has written nothing. -/
theorem C71_commands_without (r : GRepo) (o : GOp) (cs : List GitCmd) (hm : MeansGit o cs) (k : Option PyKey) (f : Fetched) (fate : Fate)
    (w w' : CWorld) (hw : w.fetched = some f) (hk : (∀ x, k = some x → x.truthy = false) ∨ f.filePath = none)
    (h : gcall r (.op o k) fate w = (.ok (), w')) :
    w'.given = w.given ++ cs.map (fun c => ⟨c, f.filePath, f.filePath.bind w.disk⟩) ∧ w'.disk = w.disk := by
  have hg : gits f.filePath o.cmds fate w = (.ok (), w') := by
    simp only [gcall] at h
    unfold sshWrapped at h
    rw [hw] at h
    simp only at h
    rcases hk with hk | hk
    · have : k.filter PyKey.truthy = none := by
        cases k with
        | none => rfl
        | some x => simp [Option.filter, hk x rfl]
      rw [this] at h
      exact h
    · rw [hk] at h ⊢
      cases hx : k.filter PyKey.truthy <;> rw [hx] at h <;> exact h
  obtain ⟨hd, -, t, ht, -, hu⟩ := gits_any hg
  rw [hu () rfl, means_cmds hm] at ht
  exact ⟨ht, hd⟩

/-- C71. However an operation ends, the commands it has given are the first of those it means: none is left out, none is given twice or out of
order, and none is given after one that failed. -/
theorem C71_commands_first (r : GRepo) (o : GOp) (cs : List GitCmd) (hm : MeansGit o cs) (k : Option PyKey) (fate : Fate) (w : CWorld) :
    ∃ t, (gcall r (.op o k) fate w).2.given = w.given ++ t ∧ t.map (·.cmd) <+: cs := by
  have hc := means_cmds hm
  have hgits : ∀ env w1, w1.given = w.given → ∃ t, (gits env cs fate w1).2.given = w.given ++ t ∧ t.map (·.cmd) <+: cs := by
    intro env w1 h1
    obtain ⟨-, -, t, ht, hp, -⟩ := gits_any (Prod.eta (gits env cs fate w1)).symm
    exact ⟨_, by rw [ht, h1], by rw [List.map_map]; simpa [Function.comp_def] using hp⟩
  simp only [gcall]
  unfold sshWrapped
  cases hw : w.fetched with
  | none => exact ⟨[], by simp, List.nil_prefix⟩
  | some f =>
    simp only [hc]
    cases hk : k.filter PyKey.truthy with
    | none => exact hgits _ w rfl
    | some k' =>
      cases hfp : f.filePath with
      | none => exact hgits _ w rfl
      | some p =>
        simp only
        have hrest := keeps_rest_write w r.buffer k' p fate w .rfl
        unfold CAct.andThen
        cases hx : writeKey r.buffer k' p fate w with
        | mk x w1 =>
          rw [hx] at hrest
          cases x with
          | error e => exact ⟨[], by simpa using hrest.1, List.nil_prefix⟩
          | ok u =>
            obtain ⟨t, ht, hp⟩ := hgits (some p) w1 hrest.1
            refine ⟨t, ?_, hp⟩
            simp only
            unfold CAct.orElse
            simp only
            cases hy : gits (some p) cs fate w1 with
            | mk y w2 =>
              rw [hy] at ht
              cases y with
              | ok u =>
                simp only
                have h3 := keeps_rest_remove w2 p fate w2 .rfl
                cases hz : removeFile p fate w2 with
                | mk z w3 =>
                  rw [hz] at h3
                  cases z with
                  | ok u => exact h3.1.trans ht
                  | error e => cases e with
                    | raised e =>
                      simp only
                      have h4 := keeps_rest_remove w3 p fate w3 .rfl
                      cases hz2 : removeFile p fate w3 with
                      | mk z2 w4 =>
                        rw [hz2] at h4
                        cases z2 <;> exact h4.1.trans (h3.1.trans ht)
                    | interrupted => exact h3.1.trans ht
                    | killed => exact h3.1.trans ht
              | error e => cases e with
                | raised e =>
                  simp only
                  have h4 := keeps_rest_remove w2 p fate w2 .rfl
                  cases hz2 : removeFile p fate w2 with
                  | mk z2 w4 =>
                    rw [hz2] at h4
                    cases z2 <;> exact h4.1.trans ht
                | interrupted => exact ht
                | killed => exact ht

/-- C71. A `fetch` over SSH that returned has cloned the branch, with the whole key in a file for the owner only, has asked for the branches with the
same key, has removed the file and left the clone. Over HTTPS it has removed what was there, cloned and asked. -/
theorem C71_fetch (r : GRepo) (k : Option PyKey) (p : String) (hpd : p ≠ r.dest) (fate : Fate) (w w' : CWorld)
    (h : gcall r (.fetch k p) fate w = (.ok (), w')) :
    w'.disk r.dest = some .folder ∧
    (OverSsh r → ∃ b bs, k = some (.bytes b) ∧ w'.disk p = none ∧ w'.fetched = some ⟨some p, bs⟩ ∧ (bs = parseLsRemote r.answer ∨ bs = [r.branch]) ∧
      w'.given = w.given ++ [⟨.clone r.url r.dest r.branch, some p, some (.file b true)⟩, ⟨.lsRemote, some p, some (.file b true)⟩]) ∧
    (¬ OverSsh r → ∃ bs, w'.fetched = some ⟨none, bs⟩ ∧ (bs = parseLsRemote r.answer ∨ bs = [r.branch]) ∧
      w'.given = w.given ++ [⟨.clone r.url r.dest r.branch, none, none⟩, ⟨.lsRemote, none, none⟩]) := by
  have hiff : r.isSsh = true ↔ OverSsh r := List.isPrefixOf_iff_prefix
  simp only [gcall, fetchRepo] at h
  split at h
  · rename_i hs
    cases k with
    | none => exact nomatch (Prod.mk.inj h).1
    | some k =>
      obtain ⟨bs, w1, h1, h2⟩ := andThen_ok h
      obtain ⟨-, rfl⟩ := Prod.mk.inj h2
      obtain ⟨_, w2, h3, h4⟩ := andThen_ok h1
      obtain ⟨b, rfl, hb⟩ := writeKey_ok h3
      rcases orElse_ok h4 with h5 | ⟨e, w3, -, h5⟩
      · obtain ⟨⟨⟩, w3, h6, h7⟩ := andThen_ok h5
        obtain ⟨bs', w4, h8, h9⟩ := andThen_ok h7
        obtain ⟨⟨⟩, w5, h10, h11⟩ := andThen_ok h9
        obtain ⟨hbs, rfl⟩ := Prod.mk.inj h11
        injection hbs with hbs
        subst hbs
        obtain ⟨hc1, hc2, hc3⟩ := clone_any h6
        obtain ⟨hdest0, hdest⟩ := hc3 () rfl
        obtain ⟨ho1, ho2, ho3, -, ho5⟩ := options_any h8
        have hrest := keeps_rest_write w r.buffer (.bytes b) p fate w .rfl
        rw [h3] at hrest
        have hrm := keeps_rest_remove w4 p fate w4 .rfl
        rw [h10] at hrm
        obtain ⟨hn, hsome⟩ := remove_ok h10
        have hp3 : w3.disk p = w2.disk p := by
          have := keeps_at_clone p (w2.disk p) (some p) r.url r.dest r.branch hpd fate w2 rfl
          rw [h6] at this
          exact this
        have hkey : w2.disk p = some (.file b true) := by
          rcases hb with hb | hb
          · exact hb
          · exact absurd (by rw [ho1, hp3, hb]) hsome
        have hdest5 : w5.disk r.dest = some .folder := by
          have := keeps_at_remove r.dest p (w4.disk r.dest) hpd.symm fate w4 rfl
          rw [h10] at this
          rw [this, ho1, hdest]
        refine ⟨hdest5, fun _ => ⟨b, bs', rfl, hn, rfl, ho5 _ rfl, ?_⟩, fun hns => absurd (hiff.1 hs) hns⟩
        show w5.given = _
        rw [hrm.1, ho3, hc1, hrest.1]
        simp [hkey, hp3]
      · obtain ⟨rem, w3, -, h6⟩ := andThen_ok h5
        cases rem <;> exact nomatch (Prod.mk.inj h6).1
  · rename_i hs
    obtain ⟨bs, w1, h1, h2⟩ := andThen_ok h
    obtain ⟨-, rfl⟩ := Prod.mk.inj h2
    obtain ⟨⟨⟩, w2, h3, h4⟩ := andThen_ok h1
    obtain ⟨⟨⟩, w3, h6, h7⟩ := andThen_ok h4
    obtain ⟨hc1, hc2, hc3⟩ := clone_any h6
    obtain ⟨hdest0, hdest⟩ := hc3 () rfl
    obtain ⟨ho1, ho2, ho3, -, ho5⟩ := options_any h7
    have hrest := keeps_rest_folder w r.dest fate w .rfl
    rw [h3] at hrest
    refine ⟨by show w1.disk r.dest = _; rw [ho1, hdest], fun hss => absurd (hiff.2 hss) hs, fun _ => ⟨bs, rfl, ho5 _ rfl, ?_⟩⟩
    show w1.given = _
    rw [ho3, hc1, hrest.1]
    simp

/-- C71. Before `fetch`, every operation raises an AttributeError and does nothing. -/
theorem C71_before_fetch (r : GRepo) (o : GOp) (k : Option PyKey) (fate : Fate) (w : CWorld) (hw : w.fetched = none) :
    gcall r (.op o k) fate w = (.error (.raised .attributeError), w) := by
  simp only [gcall]
  unfold sshWrapped
  rw [hw]

/-- C71. Over SSH a `fetch` needs a key: without one it raises a ValueError and does nothing. -/
theorem C71_needs_key (r : GRepo) (hs : OverSsh r) (p : String) (fate : Fate) (w : CWorld) :
    gcall r (.fetch none p) fate w = (.error (.raised .valueError), w) := by
  have : r.isSsh = true := List.isPrefixOf_iff_prefix.2 hs
  simp only [gcall, fetchRepo, this, if_true]
  rfl

/-! ### The branches -/

theorem splitSub_first (s : Char) (tl a r : List Char) (h : s ∉ a) : splitSub (s :: tl) (a ++ (s :: tl) ++ r) = a :: splitSub (s :: tl) r := by
  unfold splitSub
  induction a with
  | nil =>
    rw [List.nil_append, List.cons_append, splitSubGo, if_pos]
    · rw [List.length_cons, Nat.add_sub_cancel, splitSubGo_skip _ _ _ (by simp), List.drop_left]
    · rw [List.isPrefixOf_iff_prefix]; exact ⟨r, rfl⟩
  | cons c cs ih =>
    rw [List.cons_append, List.cons_append, splitSubGo, if_neg, ih (fun hm => h (by simp [hm]))]
    rw [List.isPrefixOf_iff_prefix]
    rintro ⟨t, ht⟩
    exact h (by injection ht with h1 h2; simp [h1])

theorem infix_past {s : Char} {tl a r : List Char} (h : s ∉ a) (hi : (s :: tl) <:+: a ++ r) : (s :: tl) <:+: r := by
  induction a with
  | nil => exact hi
  | cons c cs ih =>
    rw [List.cons_append, List.infix_cons_iff] at hi
    rcases hi with ⟨t, ht⟩ | hi
    · injection ht with h1 h2
      exact absurd (by simp [h1]) h
    · exact ih (fun hm => h (by simp [hm])) hi

theorem splitLines (ls : List (List Char)) (hne : ls ≠ []) (h : ∀ l ∈ ls, '\n' ∉ l) : splitChars '\n' (ls.intersperse ['\n']).flatten = ls := by
  induction ls with
  | nil => exact absurd rfl hne
  | cons l ls ih =>
    cases ls with
    | nil => simp [splitChars_noSep _ _ (h l (by simp))]
    | cons m ms =>
      have h1 := h l (by simp)
      have h2 := ih (by simp) (fun x hx => h x (by simp [hx]))
      have : ((l :: m :: ms).intersperse ['\n']).flatten = l ++ '\n' :: ((m :: ms).intersperse ['\n']).flatten := by simp [List.intersperse]
      rw [this, splitChars_append _ _ _ h1, h2]

/-- C71. The branches offered are those of the remote: for each of its references that is a branch, in the remote's order, the branch's name, and
nothing for the others; as long as no name has `/heads/` inside. -/
theorem C71_branches (refs : List (List Char × List Char)) (hne : refs ≠ [])
    (hline : ∀ x ∈ refs, '\n' ∉ x.1 ∧ '\n' ∉ x.2 ∧ '/' ∉ x.1)
    (hname : ∀ x ∈ refs, (∃ n, x.2 = "refs/heads/".toList ++ n ∧ ¬ "/heads/".toList <:+: n) ∨ ¬ "/heads/".toList <:+: x.2) :
    (parseLsRemote (String.ofList (LsRemote refs))).map String.toList =
      refs.filterMap fun x => if "refs/heads/".toList <+: x.2 then some (x.2.drop 11) else none := by
  unfold parseLsRemote LsRemote
  rw [show (String.ofList (((refs.map fun r => r.1 ++ '\t' :: r.2).intersperse ['\n']).flatten)).toList =
    ((refs.map fun r => r.1 ++ '\t' :: r.2).intersperse ['\n']).flatten from String.toList_ofList, splitLines _ (by simpa using hne)]
  · clear hne
    induction refs with
    | nil => rfl
    | cons x l ih =>
      have ih := ih (fun y hy => hline y (by simp [hy])) (fun y hy => hname y (by simp [hy]))
      obtain ⟨-, -, hs⟩ := hline x (by simp)
      rw [List.map_cons, List.filter_cons, List.filterMap_cons]
      rcases hname x (by simp) with ⟨n, hx, hn⟩ | hn
      · have hcut : x.1 ++ '\t' :: x.2 = (x.1 ++ "\trefs".toList) ++ ("/heads/".toList) ++ n := by
          rw [hx]; simp
        have hin : containsSub "/heads/".toList (x.1 ++ '\t' :: x.2) = true := by
          rw [containsSub_iff, hcut]; exact ⟨_, _, rfl⟩
        have hpre : "refs/heads/".toList <+: x.2 := ⟨n, hx.symm⟩
        have hlast : splitSub "/heads/".toList (x.1 ++ '\t' :: x.2) = [x.1 ++ "\trefs".toList, n] := by
          rw [hcut]
          have hnot : '/' ∉ x.1 ++ "\trefs".toList := by
            rw [List.mem_append]; rintro (h | h)
            · exact hs h
            · revert h; decide
          have := splitSub_first '/' "heads/".toList (x.1 ++ "\trefs".toList) n hnot
          have hh : ('/' :: "heads/".toList) = "/heads/".toList := rfl
          rw [hh] at this
          rw [this, splitSub_none _ _ (by cases hc : containsSub "/heads/".toList n with
            | false => rfl
            | true => exact absurd ((containsSub_iff _ _).1 hc) hn)]
        have hdrop : x.2.drop 11 = n := by
          rw [hx]
          have : ("refs/heads/".toList).length = 11 := rfl
          rw [← this, List.drop_left]
        rw [if_pos hin, if_pos hpre, List.map_cons, List.map_cons, hlast, hdrop, ih]
        exact congrArg₂ List.cons String.toList_ofList rfl
      · have hin : containsSub "/heads/".toList (x.1 ++ '\t' :: x.2) = false := by
          cases hc : containsSub "/heads/".toList (x.1 ++ '\t' :: x.2) with
          | false => rfl
          | true =>
            exfalso
            have h1 := infix_past (a := x.1) hs ((containsSub_iff _ _).1 hc)
            exact hn (infix_past (a := ['\t']) (by decide) h1)
        have hpre : ¬ "refs/heads/".toList <+: x.2 := by
          rintro ⟨n, hx⟩
          exact hn ⟨"refs".toList, n, by rw [← hx]; rfl⟩
        rw [if_neg (by rw [hin]; simp), if_neg hpre, ih]
  · intro l hl
    obtain ⟨x, hx, rfl⟩ := List.mem_map.1 hl
    obtain ⟨h1, h2, -⟩ := hline x hx
    simp [h1, h2]

end ML
