import Verif.Clone.Lemmas
/-
Lemmas for C71: what writing a key leaves, and which commands are given.
-/
set_option autoImplicit false
namespace ML
open Spec

/-- The rest of the world a piece leaves alone: the commands given, what `fetch` has set. -/
def SameRest (w w' : CWorld) : Prop := w'.given = w.given ∧ w'.fetched = w.fetched

theorem SameRest.rfl {w : CWorld} : SameRest w w := ⟨Eq.refl _, Eq.refl _⟩

theorem keeps_rest_step (w0 : CWorld) (k : Doing) (refused : CWorld → Option Err) (eff partly : CWorld → CWorld)
    (he : ∀ w, SameRest w (eff w)) (hp : ∀ w, SameRest w (partly w)) : KeepsW (SameRest w0) (step k refused eff partly) :=
  keeps_step k refused eff partly (fun _ _ h => h) (fun w h => ⟨(he w).1.trans h.1, (he w).2.trans h.2⟩)
    (fun w h => ⟨(hp w).1.trans h.1, (hp w).2.trans h.2⟩)

theorem keeps_rest_remove (w0 : CWorld) (p : String) : KeepsW (SameRest w0) (removeFile p) :=
  keeps_rest_step w0 _ _ _ _ (fun _ => ⟨rfl, rfl⟩) (fun _ => ⟨rfl, rfl⟩)

theorem keeps_rest_folder (w0 : CWorld) (p : String) : KeepsW (SameRest w0) (removeFolder p) := by
  intro fate w h
  unfold removeFolder
  split
  · refine keeps_rest_step w0 .rmtree _ _ _ (fun _ => ?_) (fun _ => ?_) fate w h
    · exact ⟨rfl, rfl⟩
    · exact ⟨rfl, rfl⟩
  · exact h

theorem keeps_rest_write (w0 : CWorld) (buffer : Nat) (key : PyKey) (p : String) : KeepsW (SameRest w0) (writeKey buffer key p) := by
  refine keeps_andThen (keeps_rest_step w0 _ _ _ _ (fun _ => ⟨rfl, rfl⟩) (fun _ => ⟨rfl, rfl⟩)) fun _ =>
    keeps_closing (keeps_andThen ?_ fun _ => keeps_orElse (keeps_rest_step w0 _ _ _ _ (fun _ => ⟨rfl, rfl⟩) (fun _ => ⟨rfl, rfl⟩)) fun _ =>
      keeps_rest_remove w0 p) (keeps_rest_step w0 _ _ _ _ (fun _ => ⟨rfl, rfl⟩) (fun _ => ⟨rfl, rfl⟩))
  cases key with
  | text s => exact keeps_raise _ _
  | bytes b =>
    refine keeps_rest_step w0 _ _ _ _ (fun w => ?_) (fun w => ?_)
    · split <;> exact ⟨rfl, rfl⟩
    · split <;> exact ⟨rfl, rfl⟩

/-- After the `write` of bytes and before `chmod`: what is on the disk and what waits make up the key. -/
def HalfWritten (p : String) (b : List UInt8) (w : CWorld) : Prop := ∃ c o, w.disk p = some (.file c o) ∧ c ++ w.pending = b

theorem open_half {p : String} {fate : Fate} {w w1 : CWorld} {u : Unit}
    (h : step .openFile (fun w => if w.disk p = some .folder then some .other else none)
      (fun w => { w with disk := w.disk.put p (some (truncated (w.disk p))), pending := [] }) id fate w = (.ok u, w1)) : HalfWritten p [] w1 := by
  obtain ⟨-, hr, rfl⟩ := step_ok h
  unfold HalfWritten
  simp only [put_same]
  unfold truncated
  split
  · exact ⟨_, _, rfl, rfl⟩
  · exact ⟨_, _, rfl, rfl⟩

theorem write_half {buffer : Nat} {p : String} {b : List UInt8} {fate : Fate} {w w1 : CWorld} {u : Unit} (h0 : HalfWritten p [] w)
    (h : writeBytes buffer p (.bytes b) fate w = (.ok u, w1)) : HalfWritten p b w1 := by
  unfold writeBytes at h
  obtain ⟨-, -, rfl⟩ := step_ok h
  obtain ⟨c, o, hd, hc⟩ := h0
  obtain ⟨rfl, hp⟩ := List.append_eq_nil_iff.1 hc
  unfold HalfWritten
  split
  · exact ⟨[], o, hd, rfl⟩
  · refine ⟨b, o, ?_, ?_⟩
    · simp only [put_same, hd]; rfl
    · simp only [hp, List.append_nil]

theorem chmod_half {p : String} {b : List UInt8} {fate : Fate} {w w1 : CWorld} {u : Unit} (h0 : HalfWritten p b w)
    (h : chmodFile p fate w = (.ok u, w1)) : ∃ c, w1.disk p = some (.file c true) ∧ c ++ w1.pending = b := by
  obtain ⟨-, -, rfl⟩ := step_ok h
  obtain ⟨c, o, hd, hc⟩ := h0
  exact ⟨c, by simp only [put_same, hd], hc⟩

theorem remove_ok {p : String} {fate : Fate} {w w1 : CWorld} {u : Unit} (h : removeFile p fate w = (.ok u, w1)) :
    w1.disk p = none ∧ w.disk p ≠ none := by
  obtain ⟨-, hr, rfl⟩ := step_ok h
  refine ⟨put_same _ _ _, fun hn => ?_⟩
  rw [hn] at hr
  simp at hr

theorem close_ok {p : String} {fate : Fate} {w w1 : CWorld} {u : Unit} (h : closeFile p fate w = (.ok u, w1)) :
    w1.disk p = appended w.pending (w.disk p) := by
  obtain ⟨-, -, rfl⟩ := step_ok h
  exact put_same _ _ _

/-- When writing a key returns, the file is there with the whole key and for its owner only, or (when `chmod` failed) it is not there. -/
theorem writeKey_ok {buffer : Nat} {key : PyKey} {p : String} {fate : Fate} {w w' : CWorld} {u : Unit}
    (h : writeKey buffer key p fate w = (.ok u, w')) :
    ∃ b, key = .bytes b ∧ (w'.disk p = some (.file b true) ∨ w'.disk p = none) := by
  obtain ⟨_, w1, h1, hb⟩ := andThen_ok h
  obtain ⟨w2, hc2, hcl⟩ := closing_ok hb
  obtain ⟨_, w3, h3, h2⟩ := andThen_ok hc2
  cases key with
  | text s => exact nomatch (Prod.mk.inj h3).1
  | bytes b =>
    refine ⟨b, rfl, ?_⟩
    have hw := write_half (open_half h1) h3
    rw [close_ok hcl]
    rcases orElse_ok h2 with h2 | ⟨e, w4, -, h2⟩
    · obtain ⟨c, hd, hc⟩ := chmod_half hw h2
      left
      rw [hd]
      unfold appended
      simp only [hc]
    · right
      rw [(remove_ok h2).1]
      rfl

/-- When writing bytes raises although the disk works, nothing is left at the path. -/
theorem writeKey_raised {buffer : Nat} {b : List UInt8} {p : String} {fate : Fate} (hf : DiskWorks fate) {w w' : CWorld} {e : Err}
    (h0 : w.disk p = none) (h : writeKey buffer (.bytes b) p fate w = (.error (.raised e), w')) : w'.disk p = none := by
  rcases andThen_error h with h | ⟨_, w1, h1, h⟩
  · rcases step_raised h with ⟨-, hr, -⟩ | ⟨part, -, -, rfl⟩
    · rw [h0] at hr; simp at hr
    · cases part <;> exact h0
  · exfalso
    have hop := open_half h1
    rcases closing_raised h with ⟨w2, h2, -⟩ | ⟨_, w2, -, h2⟩
    · rcases andThen_error h2 with h2 | ⟨_, w3, h3, h2⟩
      · unfold writeBytes at h2
        rcases step_raised h2 with ⟨-, hr, -⟩ | ⟨part, hp, -⟩
        · cases hr
        · exact (hf _ part).1 hp
      · obtain ⟨e1, w4, h4, h5⟩ := orElse_raised h2
        have hw4 : w4.disk p ≠ none := by
          obtain ⟨c, o, hd, -⟩ := write_half hop h3
          rcases step_raised h4 with ⟨-, -, rfl⟩ | ⟨part, -, -, rfl⟩
          · simp [hd]
          · cases part <;> simp [hd]
        rcases step_raised h5 with ⟨-, hr, -⟩ | ⟨part, hp, -⟩
        · cases hd4 : w4.disk p with
          | none => exact hw4 hd4
          | some n => rw [hd4] at hr; simp at hr
        · exact (hf _ part).2.2 hp
    · rcases step_raised h2 with ⟨-, hr, -⟩ | ⟨part, hp, -⟩
      · cases hr
      · exact (hf _ part).2.1 hp

/-- Removing what may be there, when the disk works: nothing is there afterwards. -/
theorem remove_ended {p : String} {fate : Fate} (hf : DiskWorks fate) {w w' : CWorld} {r : Except Halt Unit}
    (h : removeFile p fate w = (r, w')) (he : Ended r) : w'.disk p = none := by
  rcases he with ⟨⟨⟩, rfl⟩ | ⟨e, rfl⟩
  · exact (remove_ok h).1
  · rcases step_raised h with ⟨-, hr, rfl⟩ | ⟨part, hp, -⟩
    · cases hd : w.disk p with
      | none => rfl
      | some n => rw [hd] at hr; simp at hr
    · exact absurd hp (hf _ part).2.2

/-! ### Commands -/

/-- Commands were given, all with the same environment, a first part of those meant. -/
def GaveFirst (env : Option String) (cs : List GitCmd) (w w' : CWorld) : Prop :=
  ∃ t, w'.given = w.given ++ t ∧ t.map (·.cmd) <+: cs ∧ ∀ g ∈ t, g.env = env

theorem git_any {env : Option String} {c : GitCmd} {fate : Fate} {w w' : CWorld} {r : Except Halt Unit} (h : git env c fate w = (r, w')) :
    w'.given = w.given ++ [⟨c, env, env.bind w.disk⟩] ∧ w'.disk = w.disk ∧ w'.fetched = w.fetched := by
  unfold git step at h
  simp only at h
  cases hf : fate w.clock .git with
  | done => rw [hf] at h; obtain ⟨-, rfl⟩ := Prod.mk.inj h; exact ⟨rfl, rfl, rfl⟩
  | fails b => rw [hf] at h; obtain ⟨-, rfl⟩ := Prod.mk.inj h; cases b <;> exact ⟨rfl, rfl, rfl⟩
  | interrupted b => rw [hf] at h; obtain ⟨-, rfl⟩ := Prod.mk.inj h; cases b <;> exact ⟨rfl, rfl, rfl⟩
  | killed b => rw [hf] at h; obtain ⟨-, rfl⟩ := Prod.mk.inj h; cases b <;> exact ⟨rfl, rfl, rfl⟩

theorem gits_any {env : Option String} {cs : List GitCmd} {fate : Fate} {w w' : CWorld} {r : Except Halt Unit} (h : gits env cs fate w = (r, w')) :
    w'.disk = w.disk ∧ w'.fetched = w.fetched ∧
      (∃ t, w'.given = w.given ++ t.map (fun c => ⟨c, env, env.bind w.disk⟩) ∧ t <+: cs ∧ ∀ u, r = .ok u → t = cs) := by
  induction cs generalizing w with
  | nil => obtain ⟨rfl, rfl⟩ := Prod.mk.inj h; exact ⟨rfl, rfl, [], by simp, List.prefix_refl _, fun _ _ => rfl⟩
  | cons c cs ih =>
    unfold gits CAct.andThen at h
    cases hg : git env c fate w with
    | mk r1 w1 =>
      obtain ⟨hg1, hg2, hg3⟩ := git_any hg
      rw [hg] at h
      cases r1 with
      | ok u =>
        obtain ⟨h1, h2, t, h3, h4, h5⟩ := ih h
        refine ⟨h1.trans hg2, h2.trans hg3, c :: t, ?_, List.cons_prefix_cons.2 ⟨rfl, h4⟩, fun u hu => by rw [h5 u hu]⟩
        rw [h3, hg1, hg2]; simp
      | error e =>
        obtain ⟨rfl, rfl⟩ := Prod.mk.inj h
        exact ⟨hg2, hg3, [c], by rw [hg1]; rfl, List.cons_prefix_cons.2 ⟨rfl, List.nil_prefix⟩, fun u hu => nomatch hu⟩

theorem options_any {r : GRepo} {env : Option String} {fate : Fate} {w w' : CWorld} {res : Except Halt (List String)}
    (h : branchOptions r env fate w = (res, w')) :
    w'.disk = w.disk ∧ w'.fetched = w.fetched ∧ w'.given = w.given ++ [⟨.lsRemote, env, env.bind w.disk⟩] ∧
      (∀ e, res ≠ .error (.raised e)) ∧ ∀ bs, res = .ok bs → bs = parseLsRemote r.answer ∨ bs = [r.branch] := by
  unfold branchOptions CAct.orElse CAct.andThen at h
  cases hg : git env .lsRemote fate w with
  | mk r1 w1 =>
    obtain ⟨hg1, hg2, hg3⟩ := git_any hg
    rw [hg] at h
    cases r1 with
    | ok u =>
      obtain ⟨rfl, rfl⟩ := Prod.mk.inj h
      exact ⟨hg2, hg3, hg1, (fun _ he => by cases he), fun bs hb => .inl (by injection hb with hb; exact hb.symm)⟩
    | error e => cases e with
      | raised e =>
        obtain ⟨rfl, rfl⟩ := Prod.mk.inj h
        exact ⟨hg2, hg3, hg1, (fun _ he => by cases he), fun bs hb => .inr (by injection hb with hb; exact hb.symm)⟩
      | interrupted =>
        obtain ⟨rfl, rfl⟩ := Prod.mk.inj h
        exact ⟨hg2, hg3, hg1, (fun _ he => by cases he), fun bs hb => nomatch hb⟩
      | killed =>
        obtain ⟨rfl, rfl⟩ := Prod.mk.inj h
        exact ⟨hg2, hg3, hg1, (fun _ he => by cases he), fun bs hb => nomatch hb⟩

/-- Cloning: the command is given; the destination is a folder afterwards or what it was. -/
theorem clone_any {env : Option String} {url dest branch : String} {fate : Fate} {w w' : CWorld} {r : Except Halt Unit}
    (h : gitClone env url dest branch fate w = (r, w')) :
    w'.given = w.given ++ [⟨.clone url dest branch, env, env.bind w.disk⟩] ∧ w'.fetched = w.fetched ∧
      (∀ u, r = .ok u → w.disk dest = none ∧ w'.disk dest = some .folder) := by
  unfold gitClone step at h
  simp only at h
  cases hf : fate w.clock .git with
  | done =>
    rw [hf] at h
    simp only at h
    cases hd : w.disk dest with
    | none =>
      simp only [hd, Option.isSome_none, Bool.false_eq_true, if_false] at h
      obtain ⟨rfl, rfl⟩ := Prod.mk.inj h
      exact ⟨rfl, rfl, fun u _ => ⟨rfl, put_same _ _ _⟩⟩
    | some n =>
      simp only [hd, Option.isSome_some, if_true] at h
      obtain ⟨rfl, rfl⟩ := Prod.mk.inj h
      exact ⟨rfl, rfl, fun u hu => nomatch hu⟩
  | fails b =>
    rw [hf] at h; obtain ⟨rfl, rfl⟩ := Prod.mk.inj h
    cases b <;> exact ⟨rfl, rfl, fun u hu => nomatch hu⟩
  | interrupted b =>
    rw [hf] at h; simp only at h; obtain ⟨rfl, rfl⟩ := Prod.mk.inj h
    refine ⟨?_, ?_, fun u hu => nomatch hu⟩ <;> (repeat' split) <;> rfl
  | killed b =>
    rw [hf] at h; simp only at h; obtain ⟨rfl, rfl⟩ := Prod.mk.inj h
    refine ⟨?_, ?_, fun u hu => nomatch hu⟩ <;> (repeat' split) <;> rfl

end ML
