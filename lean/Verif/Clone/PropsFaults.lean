import Verif.Clone.PropsMore
/-
C71: what others can read of a key, what is left behind after interrupts and failures, and the clone of a project that is loaded.
-/
set_option autoImplicit false
namespace ML
open Spec

theorem andThen_end {α β : Type} {x : CAct α} {f : α → CAct β} {fate : Fate} {w : CWorld} {Q : CWorld → Prop}
    (he : ∀ e w', x fate w = (.error e, w') → Q w') (ho : ∀ a w', x fate w = (.ok a, w') → Q (f a fate w').2) : Q (x.andThen f fate w).2 := by
  unfold CAct.andThen
  cases hx : x fate w with
  | mk r w' => cases r with
    | ok a => exact ho a w' hx
    | error e => exact he e w' hx

theorem closing_end {α : Type} {x : CAct α} {fin : CAct Unit} {fate : Fate} {w : CWorld} {Q : CWorld → Prop}
    (hk : ∀ w', x fate w = (.error .killed, w') → Q w') (ho : ∀ y w', x fate w = (y, w') → y ≠ .error .killed → Q (fin fate w').2) :
    Q (x.closing fin fate w).2 := by
  unfold CAct.closing
  cases hx : x fate w with
  | mk y w' =>
    have key : y ≠ .error .killed → Q (((match fin fate w' with
        | (.ok (), w'') => (y, w'')
        | (.error h, w'') => (.error h, w'')) : Except Halt α × CWorld).2) := by
      intro hne
      have := ho y w' hx hne
      cases hcl : fin fate w' with
      | mk z w3 => rw [hcl] at this; cases z <;> exact this
    cases y with
    | ok a => exact key (fun h => nomatch h)
    | error e => cases e with
      | raised e => exact key (fun h => by injection h with h; exact nomatch h)
      | interrupted => exact key (fun h => by injection h with h; exact nomatch h)
      | killed => exact hk w' hx

/-! ### What others can read -/

theorem unexposed_step (p : String) (k : Doing) (refused : CWorld → Option Err) (eff partly : CWorld → CWorld)
    (he : ∀ w, Unexposed (w.disk p) → Unexposed ((eff w).disk p)) (hp : ∀ w, Unexposed (w.disk p) → Unexposed ((partly w).disk p)) :
    KeepsW (fun w => Unexposed (w.disk p)) (step k refused eff partly) :=
  keeps_step k refused eff partly (fun _ _ h => h) he hp

theorem unexposed_none : Unexposed none := fun _ h => nomatch h

theorem unexposed_owner (c : List UInt8) : Unexposed (some (.file c true)) := fun _ h => by
  injection h with h; injection h with h1 h2; exact nomatch h2

theorem unexposed_remove (p : String) : KeepsW (fun w => Unexposed (w.disk p)) (removeFile p) :=
  unexposed_step p _ _ _ _ (fun w _ => by simp only [put_same]; exact unexposed_none) (fun _ h => h)

theorem unexposed_chmod (p : String) : KeepsW (fun w => Unexposed (w.disk p)) (chmodFile p) := by
  refine unexposed_step p _ _ _ _ (fun w h => ?_) (fun _ h => h)
  simp only [put_same]
  split
  · exact unexposed_owner _
  · exact h

/-- Before the file is closed: nothing waits, or others cannot read it. -/
def SafeToClose (p : String) (w : CWorld) : Prop := Unexposed (w.disk p) ∧ (w.pending = [] ∨ ∀ c, w.disk p ≠ some (.file c false))

theorem close_safe {p : String} {fate : Fate} {w : CWorld} (h : SafeToClose p w) : Unexposed ((closeFile p fate w).2.disk p) := by
  have key : Unexposed (appended w.pending (w.disk p)) := by
    obtain ⟨h1, h2⟩ := h
    cases hd : w.disk p with
    | none => exact unexposed_none
    | some n => cases n with
      | folder => exact fun c hc => nomatch hc
      | file c o =>
        intro c' hc'
        unfold appended at hc'
        simp only at hc'
        injection hc' with hc'
        injection hc' with hc1 hc2
        subst hc2
        rcases h2 with h2 | h2
        · rw [h2, List.append_nil] at hc1
          rw [← hc1]
          exact h1 c hd
        · exact absurd hd (h2 c)
  unfold closeFile step
  simp only
  have h1 := h.1
  cases fate w.clock .close with
  | done => simpa only [put_same] using key
  | fails b => cases b <;> exact h1
  | interrupted b => cases b <;> simp [put_same, key, h1]
  | killed b => cases b <;> simp [put_same, key, h1]

/-- Writing a key that fits into the buffer: others can read nothing of it, at no time. -/
theorem write_unexposed {buffer : Nat} {key : PyKey} {p : String} {fate : Fate} (hi : NoInterrupt fate)
    (hr : ∀ n partly, fate n .remove ≠ .fails partly) (hb : ∀ b, key = .bytes b → b.length ≤ buffer) {w : CWorld} (h0 : Unexposed (w.disk p)) :
    Unexposed ((writeKey buffer key p fate w).2.disk p) := by
  have hopen : KeepsW (fun w => Unexposed (w.disk p)) (step .openFile (fun w => if w.disk p = some .folder then some .other else none)
      (fun w => { w with disk := w.disk.put p (some (truncated (w.disk p))), pending := [] }) id) := by
    refine unexposed_step p _ _ _ _ (fun w _ => ?_) (fun _ h => h)
    simp only [put_same]
    intro c hc
    unfold truncated at hc
    split at hc
    · injection hc with hc; injection hc with h1 h2; exact h1.symm
    · injection hc with hc; injection hc with h1 h2; exact h1.symm
  have h1 := hopen fate w h0
  refine andThen_end (Q := fun w => Unexposed (w.disk p)) (fun e w1 hx => by rw [hx] at h1; exact h1) fun u w1 hx => ?_
  rw [hx] at h1
  have hpend : w1.pending = [] := by obtain ⟨-, -, rfl⟩ := step_ok hx; rfl
  -- the body of the `with`
  have body : ∀ y w2, ((writeBytes buffer p key).andThen fun _ => (chmodFile p).orElse fun _ => removeFile p) fate w1 = (y, w2) →
      Unexposed (w2.disk p) ∧ (y ≠ .error .killed → SafeToClose p w2) := by
    intro y w2 hy
    cases key with
    | text s =>
      obtain ⟨-, rfl⟩ := Prod.mk.inj hy
      exact ⟨h1, fun _ => ⟨h1, .inl hpend⟩⟩
    | bytes b =>
      have hle := hb b rfl
      unfold CAct.andThen at hy
      cases hw : writeBytes buffer p (.bytes b) fate w1 with
      | mk z w3 =>
        rw [hw] at hy
        have hsame : w3.disk = w1.disk := by
          have hk : KeepsW (fun w => w.disk = w1.disk) (writeBytes buffer p (.bytes b)) := by
            unfold writeBytes
            refine keeps_step _ _ _ _ (fun _ _ h => h) (fun w h => ?_) (fun w h => ?_)
            · rw [if_pos hle]; exact h
            · rw [if_pos hle]; exact h
          have := hk fate w1 rfl
          rw [hw] at this
          exact this
        cases z with
        | error e =>
          obtain ⟨rfl, rfl⟩ := Prod.mk.inj hy
          refine ⟨by rw [hsame]; exact h1, fun hne => ⟨by rw [hsame]; exact h1, .inl ?_⟩⟩
          cases e with
          | raised e =>
            unfold writeBytes at hw
            rcases step_raised hw with ⟨-, hr, -⟩ | ⟨part, -, -, rfl⟩
            · cases hr
            · rw [if_pos hle]; cases part <;> exact hpend
          | interrupted =>
            exfalso
            unfold writeBytes step at hw
            simp only at hw
            cases hf : fate w1.clock .write with
            | done => rw [hf] at hw; exact nomatch (Prod.mk.inj hw).1
            | fails _ => rw [hf] at hw; exact nomatch (Prod.mk.inj hw).1
            | interrupted l => exact hi _ _ _ hf
            | killed _ => rw [hf] at hw; exact nomatch (Prod.mk.inj hw).1
          | killed => exact absurd rfl hne
        | ok u =>
          simp only at hy
          have h3 : Unexposed (w3.disk p) := by rw [hsame]; exact h1
          unfold CAct.orElse at hy
          have hch := unexposed_chmod p fate w3 h3
          cases hc : chmodFile p fate w3 with
          | mk c w4 =>
            rw [hc] at hy hch
            cases c with
            | ok u =>
              obtain ⟨rfl, rfl⟩ := Prod.mk.inj hy
              refine ⟨hch, fun _ => ⟨hch, .inr ?_⟩⟩
              obtain ⟨c, hd, -⟩ := chmod_half (write_half (open_half hx) hw) hc
              rw [hd]
              intro c' h'
              injection h' with h'
              injection h' with _ h'
              exact nomatch h'
            | error e => cases e with
              | interrupted =>
                exfalso
                unfold chmodFile step at hc
                simp only at hc
                cases hf : fate w3.clock .chmod with
                | done =>
                  rw [hf] at hc; simp only at hc
                  split at hc <;> exact nomatch (Prod.mk.inj hc).1
                | fails _ => rw [hf] at hc; exact nomatch (Prod.mk.inj hc).1
                | interrupted l => exact hi _ _ _ hf
                | killed _ => rw [hf] at hc; exact nomatch (Prod.mk.inj hc).1
              | killed =>
                obtain ⟨rfl, rfl⟩ := Prod.mk.inj hy
                exact ⟨hch, fun h => absurd rfl h⟩
              | raised e =>
                simp only at hy
                have hrm := unexposed_remove p fate w4 hch
                rw [hy] at hrm
                refine ⟨hrm, fun hne => ⟨hrm, .inr ?_⟩⟩
                have hnone : w2.disk p = none := by
                  cases y with
                  | ok u => exact (remove_ok hy).1
                  | error e => cases e with
                    | raised e =>
                      rcases step_raised hy with ⟨-, hr', rfl⟩ | ⟨part, hp, -⟩
                      · cases hd : w4.disk p with
                        | none => rfl
                        | some n => rw [hd] at hr'; simp at hr'
                      · exact absurd hp (hr _ part)
                    | killed => exact absurd rfl hne
                    | interrupted =>
                      exfalso
                      unfold removeFile step at hy
                      simp only at hy
                      cases hf : fate w4.clock .remove with
                      | done =>
                        rw [hf] at hy; simp only at hy
                        split at hy <;> exact nomatch (Prod.mk.inj hy).1
                      | fails _ => rw [hf] at hy; exact nomatch (Prod.mk.inj hy).1
                      | interrupted l => exact hi _ _ _ hf
                      | killed _ => rw [hf] at hy; exact nomatch (Prod.mk.inj hy).1
                rw [hnone]
                exact fun c h => nomatch h
  exact closing_end (Q := fun w => Unexposed (w.disk p)) (fun w2 hy => (body _ w2 hy).1) fun y w2 hy hne => close_safe ((body y w2 hy).2 hne)

/-- C71. At no time can others read anything of a key: at whatever point the process is killed, and however the call ends, a file that others can read
is empty; if the key fits into the buffer of a file, no interrupt arrives, and removing a file works. -/
theorem C71_unexposed_partial (r : GRepo) (c : GCall) (fate : Fate) (hi : NoInterrupt fate) (hr : ∀ n partly, fate n .remove ≠ .fails partly)
    (hb : ∀ b, (∃ p, c = .fetch (some (.bytes b)) p) ∨ (∃ o, c = .op o (some (.bytes b))) → b.length ≤ r.buffer) (w : CWorld) (q : String)
    (hq : q ≠ r.dest) (h0 : Unexposed (w.disk q)) : Unexposed ((gcall r c fate w).2.disk q) := by
  have hkeep : ∀ cs, KeepsW (fun w => Unexposed (w.disk q)) (gits (some q) cs) := fun cs => keeps_disk_gits (fun d => Unexposed (d q)) _ _
  cases c with
  | delete =>
    have : (gcall r .delete fate w).2.disk q = w.disk q := keeps_at_folder q _ _ hq fate w rfl
    rw [this]; exact h0
  | fetch k p =>
    by_cases hqp : q = p
    · subst hqp
      simp only [gcall, fetchRepo]
      split
      · cases k with
        | none => exact h0
        | some k =>
          refine andThen_end (Q := fun w => Unexposed (w.disk q)) (fun e w1 hx => ?_) (fun bs w1 hx => ?_)
          all_goals
            have hw : Unexposed ((fetchSsh r k q fate w).2.disk q) := by
              refine andThen_end (Q := fun w => Unexposed (w.disk q)) (fun e w2 hx => ?_) (fun u w2 hx => ?_)
              · have := write_unexposed (key := k) (buffer := r.buffer) hi hr (fun b hk => hb b (.inl ⟨q, by rw [hk]⟩)) h0
                rw [hx] at this
                exact this
              · have h2 := write_unexposed (key := k) (buffer := r.buffer) hi hr (fun b hk => hb b (.inl ⟨q, by rw [hk]⟩)) h0
                rw [hx] at h2
                refine keeps_orElse (I := fun w => Unexposed (w.disk q)) (keeps_andThen (fun fate w h => ?_) fun _ => keeps_andThen
                  (keeps_disk_options (fun d => Unexposed (d q)) _ _) fun _ => keeps_andThen (unexposed_remove q) fun _ => keeps_ret _ _)
                  (fun e => keeps_andThen (keeps_orElse (keeps_andThen (unexposed_remove q) fun _ => keeps_ret _ _) fun _ => keeps_ret _ _)
                    fun rem => ?_) fate w2 h2
                · have := keeps_at_clone q (w.disk q) (some q) r.url r.dest r.branch hq fate w rfl
                  simp only at this
                  rw [this]; exact h
                · cases rem
                  · exact keeps_raise _ _
                  · exact keeps_raise _ _
            rw [hx] at hw
            exact hw
      · have := keeps_andThen (keeps_at_https q (w.disk q) r hq) (fun bs => keeps_at_set q (w.disk q) ⟨none, bs⟩) fate w rfl
        simp only at this
        rw [this]; exact h0
    · have : (gcall r (.fetch k p) fate w).2.disk q = w.disk q := fetchRepo_elsewhere r k p q _ hq hqp fate w rfl
      rw [this]; exact h0
  | op o k =>
    by_cases hp : ∃ f, w.fetched = some f ∧ f.filePath = some q
    · obtain ⟨f, hw, hfp⟩ := hp
      simp only [gcall]
      unfold sshWrapped
      rw [hw]
      simp only [hfp]
      cases hkf : k.filter PyKey.truthy with
      | none => exact hkeep _ fate w h0
      | some k' =>
        have hk' : k = some k' := (Option.filter_eq_some_iff.1 hkf).1
        have h2 := write_unexposed (key := k') (buffer := r.buffer) hi hr (fun b hk => hb b (.inr ⟨o, by rw [hk', hk]⟩)) h0
        refine andThen_end (Q := fun w => Unexposed (w.disk q)) (fun e w2 hx => by rw [hx] at h2; exact h2) (fun u w2 hx => ?_)
        rw [hx] at h2
        exact keeps_orElse (I := fun w => Unexposed (w.disk q)) (keeps_andThen (hkeep _) fun _ => unexposed_remove q)
          (fun e => keeps_andThen (unexposed_remove q) fun _ => keeps_raise _ _) fate w2 h2
    · rw [gcall_elsewhere r (.op o k) q hq (fun h => h) fate w (fun f hw hfp => hp ⟨f, hw, hfp⟩)]
      exact h0

end ML
