import Verif.Clone.Key
/-
C71: the private key and the clone are on the disk only while they are needed.
-/
set_option autoImplicit false
namespace ML
open Spec

/-! ### Nothing is left -/

theorem tryRemove_ended {p : String} {fate : Fate} (hf : DiskWorks fate) {w w' : CWorld} {x : Except Halt Bool}
    (h : (((removeFile p).andThen fun _ => CAct.ret true).orElse fun _ => CAct.ret false) fate w = (x, w')) (he : Ended x) :
    w'.disk p = none := by
  rcases he with ⟨b, rfl⟩ | ⟨e, rfl⟩
  · rcases orElse_ok h with h1 | ⟨e, w1, h1, h2⟩
    · obtain ⟨_, w1, h3, h2⟩ := andThen_ok h1
      obtain ⟨-, rfl⟩ := Prod.mk.inj h2
      exact (remove_ok h3).1
    · obtain ⟨-, rfl⟩ := Prod.mk.inj h2
      rcases andThen_error h1 with h3 | ⟨_, w1, -, h3⟩
      · exact remove_ended hf h3 (.inr ⟨_, rfl⟩)
      · exact nomatch (Prod.mk.inj h3).1
  · obtain ⟨e1, w1, -, h⟩ := orElse_raised h
    exact nomatch (Prod.mk.inj h).1

theorem fetchSsh_clean {r : GRepo} {b : List UInt8} {p : String} {fate : Fate} (hf : DiskWorks fate) {w w' : CWorld}
    {x : Except Halt (List String)} (h0 : w.disk p = none) (h : fetchSsh r (.bytes b) p fate w = (x, w')) (he : Ended x) :
    w'.disk p = none := by
  rcases he with ⟨bs, rfl⟩ | ⟨e, rfl⟩
  · obtain ⟨_, w1, -, h⟩ := andThen_ok h
    rcases orElse_ok h with h | ⟨e, w2, -, h⟩
    · obtain ⟨_, w2, -, h⟩ := andThen_ok h
      obtain ⟨_, w3, -, h⟩ := andThen_ok h
      obtain ⟨_, w4, h4, h⟩ := andThen_ok h
      obtain ⟨-, rfl⟩ := Prod.mk.inj h
      exact (remove_ok h4).1
    · obtain ⟨rem, w3, -, h⟩ := andThen_ok h
      cases rem <;> exact nomatch (Prod.mk.inj h).1
  · rcases andThen_error h with h | ⟨_, w1, -, h⟩
    · exact writeKey_raised hf h0 h
    · obtain ⟨e1, w2, -, h⟩ := orElse_raised h
      rcases andThen_error h with h | ⟨rem, w3, h3, h⟩
      · exact tryRemove_ended hf h (.inr ⟨_, rfl⟩)
      · have := tryRemove_ended hf h3 (.inl ⟨_, rfl⟩)
        cases rem <;> (obtain ⟨-, rfl⟩ := Prod.mk.inj h; exact this)

theorem wrapped_clean {buffer : Nat} {b : List UInt8} {p : String} {cs : List GitCmd} {fate : Fate} (hf : DiskWorks fate) {w w' : CWorld}
    {x : Except Halt Unit} (h0 : w.disk p = none)
    (h : ((writeKey buffer (.bytes b) p).andThen fun _ => ((gits (some p) cs).andThen fun _ => removeFile p).orElse fun e =>
      (removeFile p).andThen fun _ => CAct.raise e) fate w = (x, w')) (he : Ended x) : w'.disk p = none := by
  rcases he with ⟨⟨⟩, rfl⟩ | ⟨e, rfl⟩
  · obtain ⟨_, w1, -, h⟩ := andThen_ok h
    rcases orElse_ok h with h | ⟨e, w2, -, h⟩
    · obtain ⟨_, w2, -, h⟩ := andThen_ok h
      exact (remove_ok h).1
    · obtain ⟨_, w3, -, h⟩ := andThen_ok h
      exact nomatch (Prod.mk.inj h).1
  · rcases andThen_error h with h | ⟨_, w1, -, h⟩
    · exact writeKey_raised hf h0 h
    · obtain ⟨e1, w2, -, h⟩ := orElse_raised h
      rcases andThen_error h with h | ⟨_, w3, h3, h⟩
      · exact remove_ended hf h (.inr ⟨_, rfl⟩)
      · obtain ⟨-, rfl⟩ := Prod.mk.inj h
        exact (remove_ok h3).1

theorem fetchRepo_elsewhere (r : GRepo) (k : Option PyKey) (p q : String) (n : Option CNode) (hd : q ≠ r.dest) (hqp : q ≠ p) :
    KeepsW (fun w => w.disk q = n) (fetchRepo r k p) := by
  unfold fetchRepo
  split
  · cases k with
    | none => exact keeps_raise _ _
    | some k => exact keeps_andThen (keeps_at_ssh q _ r k p hqp hd) fun _ => keeps_at_set q _ _
  · exact keeps_andThen (keeps_at_https q _ r hd) fun _ => keeps_at_set q _ _

/-- The disk elsewhere: whatever a call does, it does at the clone and at its key file. -/
theorem gcall_elsewhere (r : GRepo) (c : GCall) (q : String) (hd : q ≠ r.dest) (hn : ¬ NewKeyPath c q) (fate : Fate) (w : CWorld)
    (hp : ∀ f, w.fetched = some f → f.filePath ≠ some q) : (gcall r c fate w).2.disk q = w.disk q := by
  cases c with
  | fetch k p =>
    have hqp : q ≠ p := hn
    exact fetchRepo_elsewhere r k p q _ hd hqp fate w rfl
  | op o k =>
    show (sshWrapped r o k fate w).2.disk q = w.disk q
    unfold sshWrapped
    cases hw : w.fetched with
    | none => rfl
    | some f =>
      simp only
      cases hk : k.filter PyKey.truthy with
      | none => exact keeps_disk_gits (fun d => d q = w.disk q) _ _ fate w rfl
      | some k' =>
        cases hfp : f.filePath with
        | none => exact keeps_disk_gits (fun d => d q = w.disk q) _ _ fate w rfl
        | some p =>
          have hqp : q ≠ p := fun he => hp f hw (by rw [hfp, he])
          exact keeps_andThen (keeps_at_write q p _ hqp _ _) (fun _ => keeps_orElse (keeps_andThen
            (keeps_disk_gits (fun d => d q = w.disk q) _ _) fun _ => keeps_at_remove q p _ hqp) fun e =>
            keeps_andThen (keeps_at_remove q p _ hqp) fun _ => keeps_raise _ _) fate w rfl
  | delete => exact keeps_at_folder q _ _ hd fate w rfl

/-- C71. When a call has ended, by returning or by an exception, no file of it is left: where nothing was before, nothing is now, whatever failed in
between (git, `chmod`, opening the file), if the disk writes and removes what it is told and the key is bytes. Only the clone itself stays. -/
theorem C71_nothing_left_partial (r : GRepo) (c : GCall) (fate : Fate) (hf : DiskWorks fate) (w : CWorld) (hk : KeyIsBytes c)
    (he : Ended (gcall r c fate w).1) (q : String) (hq : q ≠ r.dest) (h0 : w.disk q = none) : (gcall r c fate w).2.disk q = none := by
  cases c with
  | fetch k p =>
    by_cases hqp : q = p
    · subst hqp
      simp only [gcall, fetchRepo] at he ⊢
      split at he
      · rename_i hs
        rw [if_pos hs]
        cases k with
        | none => exact h0
        | some k =>
          obtain ⟨b, rfl⟩ := hk k rfl
          simp only at he ⊢
          unfold CAct.andThen at he ⊢
          cases hx : fetchSsh r (.bytes b) q fate w with
          | mk x w1 =>
            rw [hx] at he
            cases x with
            | ok bs => exact (fetchSsh_clean hf h0 hx (.inl ⟨_, rfl⟩) : w1.disk q = none)
            | error e =>
              rcases he with ⟨a, ha⟩ | ⟨e', he'⟩
              · exact nomatch ha
              · injection he' with he'
                subst he'
                exact fetchSsh_clean hf h0 hx (.inr ⟨_, rfl⟩)
      · rename_i hs
        rw [if_neg hs]
        exact keeps_andThen (keeps_at_https q none r hq) (fun _ => keeps_at_set q none _) fate w h0
    · exact (fetchRepo_elsewhere r k p q _ hq hqp fate w rfl).trans h0
  | op o k =>
    by_cases hp : ∃ f, w.fetched = some f ∧ f.filePath = some q
    · obtain ⟨f, hw, hfp⟩ := hp
      simp only [gcall] at he ⊢
      unfold sshWrapped at he ⊢
      rw [hw] at he ⊢
      simp only [hfp] at he ⊢
      cases hkf : k.filter PyKey.truthy with
      | none => exact keeps_disk_gits (fun d => d q = none) _ _ fate w h0
      | some k' =>
        have hk' : k = some k' := (Option.filter_eq_some_iff.1 hkf).1
        obtain ⟨b, rfl⟩ := hk k' hk'
        rw [hkf] at he
        exact wrapped_clean hf h0 (Prod.eta _).symm he
    · rw [gcall_elsewhere r (.op o k) q hq (fun h => h) fate w (fun f hw hfp => hp ⟨f, hw, hfp⟩)]
      exact h0
  | delete => exact keeps_at_folder q none _ hq fate w h0

/-- C71. The same of any history of calls, by someone who goes on after exceptions. -/
theorem C71_history_partial (r : GRepo) (cs : List GCall) (fate : Fate) (hf : DiskWorks fate) (w : CWorld) (hk : ∀ c ∈ cs, KeyIsBytes c)
    (he : Ended (ghistory r cs fate w).1) (q : String) (hq : q ≠ r.dest) (h0 : w.disk q = none) : (ghistory r cs fate w).2.disk q = none := by
  induction cs generalizing w with
  | nil => exact h0
  | cons c cs ih =>
    unfold ghistory CAct.andThen at he ⊢
    have key := C71_nothing_left_partial r c fate hf w (hk c (by simp))
    cases hx : ((gcall r c).orElse fun _ => CAct.ret ()) fate w with
    | mk x w1 =>
      rw [hx] at he
      unfold CAct.orElse at hx
      cases hy : gcall r c fate w with
      | mk y w2 =>
        rw [hy] at hx key
        cases y with
        | ok u =>
          obtain ⟨rfl, rfl⟩ := Prod.mk.inj hx
          exact ih w2 (fun c' hc' => hk c' (by simp [hc'])) he (key (.inl ⟨_, rfl⟩) q hq h0)
        | error e =>
          cases e with
          | raised e =>
            obtain ⟨rfl, rfl⟩ := Prod.mk.inj hx
            exact ih w2 (fun c' hc' => hk c' (by simp [hc'])) he (key (.inr ⟨_, rfl⟩) q hq h0)
          | interrupted =>
            obtain ⟨rfl, rfl⟩ := Prod.mk.inj hx
            rcases he with ⟨a, ha⟩ | ⟨e', he'⟩
            · exact nomatch ha
            · exact nomatch he'
          | killed =>
            obtain ⟨rfl, rfl⟩ := Prod.mk.inj hx
            rcases he with ⟨a, ha⟩ | ⟨e', he'⟩
            · exact nomatch ha
            · exact nomatch he'

/-- C71. Whatever becomes of a call, also when the process is killed in the middle of it, nothing but the clone and the call's own key file is
touched: calls of other repositories, at the same time, keep their files. -/
theorem C71_elsewhere (r : GRepo) (c : GCall) (fate : Fate) (w : CWorld) (q : String) (hd : q ≠ r.dest) (hn : ¬ NewKeyPath c q)
    (hp : ∀ f, w.fetched = some f → f.filePath ≠ some q) : (gcall r c fate w).2.disk q = w.disk q :=
  gcall_elsewhere r c q hd hn fate w hp

/-- C71. Without SSH no key is ever written: whatever key is given, `fetch` touches nothing but the clone, and sets no key file, so that the later
operations touch nothing at all. -/
theorem C71_https (r : GRepo) (hs : ¬ OverSsh r) (k : Option PyKey) (p : String) (fate : Fate) (w : CWorld) (q : String) (hd : q ≠ r.dest) :
    (gcall r (.fetch k p) fate w).2.disk q = w.disk q ∧
    (∀ u, (gcall r (.fetch k p) fate w).1 = .ok u → ∃ f, (gcall r (.fetch k p) fate w).2.fetched = some f ∧ f.filePath = none) ∧
    ∀ f o, w.fetched = some f → f.filePath = none → (gcall r (.op o k) fate w).2.disk = w.disk := by
  have hs' : r.isSsh = false := by
    cases h : r.isSsh with
    | false => rfl
    | true => exact absurd (List.isPrefixOf_iff_prefix.1 h) hs
  refine ⟨?_, ?_, ?_⟩
  · simp only [gcall, fetchRepo, hs']
    exact keeps_andThen (keeps_at_https q (w.disk q) r hd) (fun _ => keeps_at_set q _ _) fate w rfl
  · intro u h
    simp only [gcall, fetchRepo, hs'] at h ⊢
    have h' : ((fetchHttps r).andThen fun bs => setFetched ⟨none, bs⟩) fate w = (.ok u, _) := Prod.ext h rfl
    obtain ⟨bs, w1, h1, h2⟩ := andThen_ok h'
    have := (Prod.mk.inj h2).2
    exact ⟨_, by simpa using congrArg CWorld.fetched this.symm, rfl⟩
  · intro f o hw hfp
    show (sshWrapped r o k fate w).2.disk = w.disk
    unfold sshWrapped
    rw [hw]
    simp only [hfp]
    cases k.filter PyKey.truthy with
    | none => exact keeps_disk_gits (fun d => d = w.disk) _ _ fate w rfl
    | some k' => exact keeps_disk_gits (fun d => d = w.disk) _ _ fate w rfl

end ML
