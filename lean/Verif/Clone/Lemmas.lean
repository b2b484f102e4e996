import Verif.Clone.Spec
/-
Lemmas for C71: what each piece of the program keeps, and what it leaves.
-/
set_option autoImplicit false
namespace ML
open Spec

theorem put_same (d : CDisk) (p : String) (n : Option CNode) : d.put p n p = n := by simp [CDisk.put]

theorem put_other (d : CDisk) {p q : String} (n : Option CNode) (h : q ≠ p) : d.put p n q = d q := by simp [CDisk.put, h]

/-- A piece of the program keeps a property of the world, however it ends. -/
def KeepsW {α : Type} (I : CWorld → Prop) (x : CAct α) : Prop := ∀ fate w, I w → I (x fate w).2

theorem keeps_ret {α : Type} (I : CWorld → Prop) (a : α) : KeepsW I (CAct.ret a) := fun _ _ h => h

theorem keeps_raise {α : Type} (I : CWorld → Prop) (e : Err) : KeepsW I (CAct.raise e : CAct α) := fun _ _ h => h

theorem keeps_andThen {α β : Type} {I : CWorld → Prop} {x : CAct α} {f : α → CAct β} (hx : KeepsW I x) (hf : ∀ a, KeepsW I (f a)) :
    KeepsW I (x.andThen f) := by
  intro fate w h
  have h1 := hx fate w h
  unfold CAct.andThen
  cases hr : x fate w with
  | mk r w' =>
    rw [hr] at h1
    cases r with
    | ok a => exact hf a fate w' h1
    | error e => exact h1

theorem keeps_orElse {α : Type} {I : CWorld → Prop} {x : CAct α} {f : Err → CAct α} (hx : KeepsW I x) (hf : ∀ e, KeepsW I (f e)) :
    KeepsW I (x.orElse f) := by
  intro fate w h
  have h1 := hx fate w h
  unfold CAct.orElse
  cases hr : x fate w with
  | mk r w' =>
    rw [hr] at h1
    cases r with
    | ok a => exact h1
    | error e => cases e with
      | raised e => exact hf e fate w' h1
      | interrupted => exact h1
      | killed => exact h1

theorem keeps_closing {α : Type} {I : CWorld → Prop} {x : CAct α} {fin : CAct Unit} (hx : KeepsW I x) (hf : KeepsW I fin) :
    KeepsW I (x.closing fin) := by
  intro fate w h
  have h1 := hx fate w h
  unfold CAct.closing
  cases hr : x fate w with
  | mk r w' =>
    rw [hr] at h1
    have h2 := hf fate w' h1
    have key : ∀ (r : Except Halt α), I ((match fin fate w' with
        | (.ok (), w'') => (r, w'')
        | (.error h, w'') => (.error h, w'')) : Except Halt α × CWorld).2 := by
      intro r
      cases hr2 : fin fate w' with
      | mk r2 w2 => rw [hr2] at h2; cases r2 <;> exact h2
    cases r with
    | ok a => exact key _
    | error e => cases e with
      | raised e => exact key _
      | interrupted => exact key _
      | killed => exact h1

theorem keeps_step {I : CWorld → Prop} (k : Doing) (refused : CWorld → Option Err) (eff partly : CWorld → CWorld)
    (hc : ∀ w n, I w → I { w with clock := n }) (he : ∀ w, I w → I (eff w)) (hp : ∀ w, I w → I (partly w)) :
    KeepsW I (step k refused eff partly) := by
  intro fate w h
  have h1 := hc w (w.clock + 1) h
  unfold step
  simp only
  cases fate w.clock k with
  | done =>
    simp only
    cases refused w with
    | none => exact he _ h1
    | some e => exact h1
  | fails b => cases b <;> simp [h1, hp _ h1]
  | interrupted l =>
    simp only
    split
    · exact he _ h1
    · exact h1
  | killed l =>
    simp only
    split
    · exact he _ h1
    · exact h1

/-! ### What stays as it is -/

theorem keeps_at_step (q : String) (n : Option CNode) (k : Doing) (refused : CWorld → Option Err) (eff partly : CWorld → CWorld)
    (he : ∀ w, (eff w).disk q = w.disk q) (hp : ∀ w, (partly w).disk q = w.disk q) :
    KeepsW (fun w => w.disk q = n) (step k refused eff partly) :=
  keeps_step k refused eff partly (fun _ _ h => h) (fun w h => (he w).trans h) (fun w h => (hp w).trans h)

theorem keeps_at_remove (q p : String) (n : Option CNode) (h : q ≠ p) : KeepsW (fun w => w.disk q = n) (removeFile p) :=
  keeps_at_step q n _ _ _ _ (fun _ => put_other _ _ h) (fun _ => rfl)

theorem keeps_at_write (q p : String) (n : Option CNode) (h : q ≠ p) (buffer : Nat) (key : PyKey) :
    KeepsW (fun w => w.disk q = n) (writeKey buffer key p) := by
  refine keeps_andThen (keeps_at_step q n _ _ _ _ (fun _ => put_other _ _ h) (fun _ => rfl)) fun _ =>
    keeps_closing (keeps_andThen ?_ fun _ => keeps_orElse ?_ fun _ => keeps_at_remove q p n h) ?_
  · cases key with
    | text s => exact keeps_raise _ _
    | bytes b =>
      refine keeps_at_step q n _ _ _ _ (fun w => ?_) (fun w => ?_)
      · split
        · rfl
        · exact put_other _ _ h
      · split
        · rfl
        · exact put_other _ _ h
  · exact keeps_at_step q n _ _ _ _ (fun _ => put_other _ _ h) (fun _ => rfl)
  · exact keeps_at_step q n _ _ _ _ (fun _ => put_other _ _ h) (fun _ => rfl)

theorem keeps_disk_git (I : CDisk → Prop) (env : Option String) (c : GitCmd) : KeepsW (fun w => I w.disk) (git env c) := by
  intro fate w h
  exact keeps_step (I := fun w => I w.disk) .git (fun _ => none) id id (fun _ _ h => h) (fun _ h => h) (fun _ h => h) fate _ h

theorem keeps_disk_gits (I : CDisk → Prop) (env : Option String) (cs : List GitCmd) : KeepsW (fun w => I w.disk) (gits env cs) := by
  induction cs with
  | nil => exact keeps_ret _ _
  | cons c cs ih => exact keeps_andThen (keeps_disk_git I env c) fun _ => ih

theorem keeps_disk_options (I : CDisk → Prop) (r : GRepo) (env : Option String) : KeepsW (fun w => I w.disk) (branchOptions r env) :=
  keeps_orElse (keeps_andThen (keeps_disk_git I env _) fun _ => keeps_ret _ _) fun _ => keeps_ret _ _

theorem keeps_at_clone (q : String) (n : Option CNode) (env : Option String) (url dest branch : String) (h : q ≠ dest) :
    KeepsW (fun w => w.disk q = n) (gitClone env url dest branch) := by
  intro fate w hw
  exact keeps_at_step q n .git _ _ _ (fun _ => put_other _ _ h) (fun _ => put_other _ _ h) fate _ hw

theorem keeps_at_folder (q : String) (n : Option CNode) (p : String) (h : q ≠ p) : KeepsW (fun w => w.disk q = n) (removeFolder p) := by
  intro fate w hw
  unfold removeFolder
  split
  · exact keeps_at_step q n .rmtree _ _ _ (fun _ => put_other _ _ h) (fun _ => rfl) fate _ hw
  · exact hw

theorem keeps_at_set (q : String) (n : Option CNode) (f : Fetched) : KeepsW (fun w => w.disk q = n) (setFetched f) := fun _ _ h => h

theorem keeps_at_ssh (q : String) (n : Option CNode) (r : GRepo) (key : PyKey) (p : String) (h : q ≠ p) (hd : q ≠ r.dest) :
    KeepsW (fun w => w.disk q = n) (fetchSsh r key p) := by
  refine keeps_andThen (keeps_at_write q p n h _ _) fun _ => keeps_orElse (keeps_andThen (keeps_at_clone q n _ _ _ _ hd) fun _ =>
    keeps_andThen (keeps_disk_options (fun d => d q = n) _ _) fun _ => keeps_andThen (keeps_at_remove q p n h) fun _ => keeps_ret _ _) fun e =>
    keeps_andThen (keeps_orElse (keeps_andThen (keeps_at_remove q p n h) fun _ => keeps_ret _ _) fun _ => keeps_ret _ _) fun b => ?_
  cases b
  · exact keeps_raise _ _
  · exact keeps_raise _ _

theorem keeps_at_https (q : String) (n : Option CNode) (r : GRepo) (hd : q ≠ r.dest) : KeepsW (fun w => w.disk q = n) (fetchHttps r) :=
  keeps_andThen (keeps_at_folder q n _ hd) fun _ => keeps_andThen (keeps_at_clone q n _ _ _ _ hd) fun _ =>
    keeps_disk_options (fun d => d q = n) _ _

/-! ### What a step gives -/

/-- A step that returned was done, and was not refused. -/
theorem step_ok {k : Doing} {refused : CWorld → Option Err} {eff partly : CWorld → CWorld} {fate : Fate} {w w' : CWorld}
    (h : step k refused eff partly fate w = (.ok (), w')) :
    fate w.clock k = .done ∧ refused w = none ∧ w' = eff { w with clock := w.clock + 1 } := by
  unfold step at h
  simp only at h
  cases hf : fate w.clock k with
  | done =>
    rw [hf] at h
    simp only at h
    cases hr : refused w with
    | none => rw [hr] at h; simp only at h; exact ⟨rfl, rfl, ((Prod.mk.inj h).2).symm⟩
    | some e => rw [hr] at h; simp only at h; exact nomatch (Prod.mk.inj h).1
  | fails b => rw [hf] at h; exact nomatch (Prod.mk.inj h).1
  | interrupted b => rw [hf] at h; exact nomatch (Prod.mk.inj h).1
  | killed b => rw [hf] at h; exact nomatch (Prod.mk.inj h).1

/-- A step that raised failed or was refused. -/
theorem step_raised {k : Doing} {refused : CWorld → Option Err} {eff partly : CWorld → CWorld} {fate : Fate} {w w' : CWorld} {e : Err}
    (h : step k refused eff partly fate w = (.error (.raised e), w')) :
    (fate w.clock k = .done ∧ refused w = some e ∧ w' = { w with clock := w.clock + 1 }) ∨
    (∃ b, fate w.clock k = .fails b ∧ e = .other ∧
      w' = if b then partly { w with clock := w.clock + 1 } else { w with clock := w.clock + 1 }) := by
  unfold step at h
  simp only at h
  cases hf : fate w.clock k with
  | done =>
    rw [hf] at h
    simp only at h
    cases hr : refused w with
    | none => rw [hr] at h; simp only at h; exact nomatch (Prod.mk.inj h).1
    | some e' =>
      rw [hr] at h; simp only at h
      obtain ⟨h1, h2⟩ := Prod.mk.inj h
      injection h1 with h1; injection h1 with h1
      exact .inl ⟨rfl, by rw [h1], h2.symm⟩
  | fails b =>
    rw [hf] at h
    simp only at h
    obtain ⟨h1, h2⟩ := Prod.mk.inj h
    injection h1 with h1; injection h1 with h1
    exact .inr ⟨b, rfl, h1.symm, h2.symm⟩
  | interrupted b => rw [hf] at h; exact nomatch (Prod.mk.inj h).1
  | killed b => rw [hf] at h; exact nomatch (Prod.mk.inj h).1

theorem andThen_ok {α β : Type} {x : CAct α} {f : α → CAct β} {fate : Fate} {w w' : CWorld} {b : β}
    (h : x.andThen f fate w = (.ok b, w')) : ∃ a w1, x fate w = (.ok a, w1) ∧ f a fate w1 = (.ok b, w') := by
  unfold CAct.andThen at h
  cases hr : x fate w with
  | mk r w1 =>
    rw [hr] at h
    cases r with
    | ok a => exact ⟨a, w1, rfl, h⟩
    | error e => exact nomatch (Prod.mk.inj h).1

theorem andThen_error {α β : Type} {x : CAct α} {f : α → CAct β} {fate : Fate} {w w' : CWorld} {e : Halt}
    (h : x.andThen f fate w = (.error e, w')) :
    x fate w = (.error e, w') ∨ ∃ a w1, x fate w = (.ok a, w1) ∧ f a fate w1 = (.error e, w') := by
  unfold CAct.andThen at h
  cases hr : x fate w with
  | mk r w1 =>
    rw [hr] at h
    cases r with
    | ok a => exact .inr ⟨a, w1, rfl, h⟩
    | error e' =>
      simp only at h
      obtain ⟨h1, h2⟩ := Prod.mk.inj h
      injection h1 with h1
      exact .inl (by rw [h1, h2])

theorem orElse_ok {α : Type} {x : CAct α} {f : Err → CAct α} {fate : Fate} {w w' : CWorld} {a : α}
    (h : x.orElse f fate w = (.ok a, w')) :
    x fate w = (.ok a, w') ∨ ∃ e w1, x fate w = (.error (.raised e), w1) ∧ f e fate w1 = (.ok a, w') := by
  unfold CAct.orElse at h
  cases hr : x fate w with
  | mk r w1 =>
    rw [hr] at h
    cases r with
    | ok a => exact .inl h
    | error e => cases e with
      | raised e => exact .inr ⟨e, w1, rfl, h⟩
      | interrupted => exact .inl h
      | killed => exact .inl h

theorem orElse_raised {α : Type} {x : CAct α} {f : Err → CAct α} {fate : Fate} {w w' : CWorld} {e : Err}
    (h : x.orElse f fate w = (.error (.raised e), w')) :
    ∃ e1 w1, x fate w = (.error (.raised e1), w1) ∧ f e1 fate w1 = (.error (.raised e), w') := by
  unfold CAct.orElse at h
  cases hr : x fate w with
  | mk r w1 =>
    rw [hr] at h
    cases r with
    | ok a => exact nomatch (Prod.mk.inj h).1
    | error e => cases e with
      | raised e1 => exact ⟨e1, w1, rfl, h⟩
      | interrupted => simp only at h; exact nomatch (Prod.mk.inj h).1
      | killed => simp only at h; exact nomatch (Prod.mk.inj h).1

theorem closing_ok {α : Type} {x : CAct α} {fin : CAct Unit} {fate : Fate} {w w' : CWorld} {a : α}
    (h : x.closing fin fate w = (.ok a, w')) : ∃ w1, x fate w = (.ok a, w1) ∧ fin fate w1 = (.ok (), w') := by
  unfold CAct.closing at h
  cases hr : x fate w with
  | mk r w1 =>
    rw [hr] at h
    cases hf : fin fate w1 with
    | mk r2 w2 =>
      cases r with
      | ok a' =>
        simp only [hf] at h
        cases r2 with
        | ok u => simp only at h; obtain ⟨h1, h2⟩ := Prod.mk.inj h; injection h1 with h1; exact ⟨w1, by rw [h1], by rw [← h2]; exact hf⟩
        | error e => exact nomatch (Prod.mk.inj h).1
      | error e => cases e with
        | killed => exact nomatch (Prod.mk.inj h).1
        | raised e =>
          simp only [hf] at h
          cases r2 <;> exact nomatch (Prod.mk.inj h).1
        | interrupted =>
          simp only [hf] at h
          cases r2 <;> exact nomatch (Prod.mk.inj h).1

theorem closing_raised {α : Type} {x : CAct α} {fin : CAct Unit} {fate : Fate} {w w' : CWorld} {e : Err}
    (h : x.closing fin fate w = (.error (.raised e), w')) :
    (∃ w1, x fate w = (.error (.raised e), w1) ∧ fin fate w1 = (.ok (), w')) ∨ ∃ r w1, x fate w = (r, w1) ∧ fin fate w1 = (.error (.raised e), w') := by
  unfold CAct.closing at h
  cases hr : x fate w with
  | mk r w1 =>
    rw [hr] at h
    cases hf : fin fate w1 with
    | mk r2 w2 =>
      have key : ((match fin fate w1 with
          | (.ok (), w'') => (r, w'')
          | (.error h, w'') => (.error h, w'')) : Except Halt α × CWorld) = (.error (.raised e), w') →
          (∃ w1', (r, w1) = (.error (.raised e), w1') ∧ fin fate w1' = (.ok (), w')) ∨
          ∃ r' w1', (r, w1) = (r', w1') ∧ fin fate w1' = (.error (.raised e), w') := by
        intro h
        rw [hf] at h
        cases r2 with
        | ok u =>
          simp only at h
          obtain ⟨h1, h2⟩ := Prod.mk.inj h
          exact .inl ⟨w1, by rw [h1], by rw [hf, h2]⟩
        | error e2 =>
          simp only at h
          obtain ⟨h1, h2⟩ := Prod.mk.inj h
          injection h1 with h1
          exact .inr ⟨r, w1, rfl, by rw [hf, h2, h1]⟩
      cases r with
      | ok a' => exact key h
      | error e' => cases e' with
        | killed => simp only at h; exact nomatch (Prod.mk.inj h).1
        | raised e' => exact key h
        | interrupted => exact key h

end ML
