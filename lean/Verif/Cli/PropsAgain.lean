import Verif.Cli.Props
/-
C72: `init` after an interruption, the profile, and loading what `init` has started.
-/
set_option autoImplicit false
namespace ML
open Spec

/-- All of what `init` does. -/
theorem init_full {cwd : PathText} {base : List PathName} (hl : Leads cwd base) (w : WorkDir) :
    (cliInit cwd w).2 = (projectFile cwd w).map (fun _ => ()) ∧
    (∀ place, place ∈ (cliInit cwd w).1.dirs ↔
      place ∈ w.dirs ∨ (place ∈ (initNames (inDbtProject cwd w)).map (fun n => base ++ [n.toList]) ∧ NothingAt w place)) ∧
    (∀ d, projectFile cwd w = .ok d → ∀ q x, FileAt (cliInit cwd w).1 q x ↔
      (q = base ++ ["zenlytic_project.yml".toList] ∧ x = .ok (.dict d)) ∨ (q ≠ base ++ ["zenlytic_project.yml".toList] ∧ FileAt w q x)) ∧
    (∀ e, projectFile cwd w = .error e → (cliInit cwd w).1.files = w.files) := by
  cases hp : projectFile cwd w with
  | ok d =>
    obtain ⟨h1, h2⟩ := init_writes hl w d hp
    refine ⟨h1, h2.made, ?_, by intro e he; cases he⟩
    intro d' hd' q x
    cases hd'
    by_cases hq : q = base ++ ["zenlytic_project.yml".toList]
    · rw [hq, h2.written x]
      exact ⟨fun h => .inl ⟨rfl, h⟩, fun h => h.elim (·.2) fun h => absurd rfl h.1⟩
    · rw [h2.others q x hq]
      exact ⟨fun h => .inr ⟨hq, h⟩, fun h => h.elim (fun h => absurd h.1 hq) (·.2)⟩
  | error e =>
    have es : initSteps cwd w = (initFolders cwd w, .error e) := by
      unfold initSteps
      rw [projectFile_after hl, hp]
    obtain ⟨g1, g2⟩ := mkdirs_run hl (initNames (inDbtProject cwd w)) (initNames_ok _) w
    rw [← initFolders_eq] at g1 g2
    unfold cliInit
    rw [es]
    exact ⟨rfl, g2, fun d hd => (by cases hd), fun _ _ => g1⟩

/-- A disk that is between the beginning and the end of an `init`. -/
structure Between (cwd : PathText) (base : List PathName) (w w1 : WorkDir) : Prop where
  kept : ∀ place, place ∈ w.dirs → place ∈ w1.dirs
  new : ∀ place, place ∈ w1.dirs → place ∈ w.dirs ∨ (place ∈ (initNames (inDbtProject cwd w)).map (fun n => base ++ [n.toList]) ∧ NothingAt w place)
  files : ∀ q x, q ≠ base ++ ["zenlytic_project.yml".toList] → (FileAt w1 q x ↔ FileAt w q x)
  first : ∀ e, projectFile cwd w = .error e → w1.files = w.files
  read : readFile w1.files (cliDbtPath cwd) = readFile w.files (cliDbtPath cwd)

theorem last_ne {base : List PathName} {a b : PathName} (h : a ≠ b) : base ++ [a] ≠ base ++ [b] := by
  intro hc
  exact h (by simpa using List.append_cancel_left hc)

theorem folder_ne {base : List PathName} {b : Bool} {place : List PathName} (h : place ∈ (initNames b).map (fun n => base ++ [n.toList])) :
    place ≠ base ++ ["zenlytic_project.yml".toList] ∧ place ≠ base ++ ["dbt_project.yml".toList] := by
  obtain ⟨n, hn, rfl⟩ := List.mem_map.1 h
  have : n ∈ ["models", "views", "dashboards"] := by
    cases b
    · exact hn
    · simp only [initNames, if_true, List.mem_singleton] at hn; simp [hn]
  simp only [List.mem_cons, List.not_mem_nil, or_false] at this
  rcases this with rfl | rfl | rfl <;> exact ⟨last_ne (by decide), last_ne (by decide)⟩

theorem between_dbt {cwd : PathText} {base : List PathName} (hl : Leads cwd base) {w w1 : WorkDir} (h : Between cwd base w w1) :
    inDbtProject cwd w1 = inDbtProject cwd w ∧ projectFile cwd w1 = projectFile cwd w := by
  have h1 : inDbtProject cwd w1 = inDbtProject cwd w := by
    rw [Bool.eq_iff_iff, inDbt_iff hl, inDbt_iff hl, not_iff_not]
    have hne : base ++ ["dbt_project.yml".toList] ≠ base ++ ["zenlytic_project.yml".toList] := last_ne (by decide)
    unfold NothingAt
    constructor
    · rintro ⟨a, b⟩
      exact ⟨fun v hv => a v ((h.files _ _ hne).2 hv), fun hd => b (h.kept _ hd)⟩
    · rintro ⟨a, b⟩
      refine ⟨fun v hv => a v ((h.files _ _ hne).1 hv), fun hd => ?_⟩
      rcases h.new _ hd with hd | ⟨hd, _⟩
      · exact b hd
      · exact (folder_ne hd).2 rfl
  refine ⟨h1, ?_⟩
  unfold projectFile
  rw [h1, h.read]

theorem between_same {cwd : PathText} {base : List PathName} (hl : Leads cwd base) {w w1 : WorkDir} (h : Between cwd base w w1) :
    (cliInit cwd w1).2 = (cliInit cwd w).2 ∧ SameDisk (cliInit cwd w1).1 (cliInit cwd w).1 := by
  obtain ⟨hi, hp⟩ := between_dbt hl h
  obtain ⟨a1, a2, a3, a4⟩ := init_full hl w
  obtain ⟨b1, b2, b3, b4⟩ := init_full hl w1
  rw [hp] at b1 b3 b4
  rw [hi] at b2
  refine ⟨by rw [a1, b1], ?_, ?_⟩
  · intro q x
    cases hf : projectFile cwd w with
    | ok d =>
      rw [a3 d hf, b3 d hf]
      constructor
      · rintro (hx | ⟨h1, h2⟩)
        · exact .inl hx
        · exact .inr ⟨h1, (h.files q x h1).1 h2⟩
      · rintro (hx | ⟨h1, h2⟩)
        · exact .inl hx
        · exact .inr ⟨h1, (h.files q x h1).2 h2⟩
    | error e =>
      unfold FileAt
      rw [a4 e hf, b4 e hf, h.first e hf]
  · intro place
    rw [a2, b2]
    constructor
    · rintro (hd | ⟨hd, hn⟩)
      · exact h.new _ hd
      · right
        refine ⟨hd, fun v hv => hn.1 v ((h.files _ _ (folder_ne hd).1).2 hv), fun hd' => hn.2 (h.kept _ hd')⟩
    · rintro (hd | ⟨hd, hn⟩)
      · exact .inl (h.kept _ hd)
      · by_cases hc : place ∈ w1.dirs
        · exact .inl hc
        · exact .inr ⟨hd, fun v hv => hn.1 v ((h.files _ _ (folder_ne hd).1).1 hv), hc⟩

/-- Files that are there or not are found at the same place. -/
theorem readFile_put {d : Disk} {t : PathText} {q : List PathName} (v : Yaml) (h : resolvePath t ≠ q) : readFile (putFile d q v) t = readFile d t := by
  unfold readFile putFile
  rw [List.find?_cons]
  have h1 : decide ((q, (Except.ok v : Res Yaml)).1 = resolvePath t) = false := by simp [Ne.symm h]
  rw [h1]
  have : (d.filter fun f => decide (f.1 ≠ q)).find? (fun f => decide (f.1 = resolvePath t)) = d.find? (fun f => decide (f.1 = resolvePath t)) := by
    induction d with
    | nil => rfl
    | cons f d ih =>
      by_cases hf : f.1 = q
      · rw [List.filter_cons_of_neg (by simp [hf]), ih, List.find?_cons]
        have : decide (f.1 = resolvePath t) = false := by simp [hf, Ne.symm h]
        rw [this]
      · rw [List.filter_cons_of_pos (by simp [hf]), List.find?_cons, List.find?_cons, ih]
  simp only [this]

theorem between_take {cwd : PathText} {base : List PathName} (hl : Leads cwd base) (w : WorkDir) (n : ℕ) :
    Between cwd base w (runSteps w ((initSteps cwd w).1.take n)) := by
  have hz : resolvePath (cliDbtPath cwd) ≠ base ++ ["zenlytic_project.yml".toList] := by
    rw [dbt_place hl]
    exact last_ne (by decide)
  -- the folders
  have folders : ∀ m, Between cwd base w (runSteps w ((initFolders cwd w).take m)) := by
    intro m
    rw [initFolders_eq, ← List.map_take]
    have hsub : ∀ x ∈ (initNames (inDbtProject cwd w)).take m, x ∈ initNames (inDbtProject cwd w) := fun x hx => List.mem_of_mem_take hx
    obtain ⟨g1, g2⟩ := mkdirs_run hl ((initNames (inDbtProject cwd w)).take m) (fun x hx => initNames_ok _ x (hsub x hx)) w
    refine ⟨fun place hp => (g2 place).2 (.inl hp), fun place hp => ?_, fun q x _ => ?_, fun _ _ => g1, by rw [g1]⟩
    · rcases (g2 place).1 hp with hp | ⟨hp, hn⟩
      · exact .inl hp
      · obtain ⟨x, hx, he⟩ := List.mem_map.1 hp
        exact .inr ⟨List.mem_map.2 ⟨x, hsub x hx, he⟩, hn⟩
    · unfold FileAt
      rw [g1]
  cases hp : projectFile cwd w with
  | error e =>
    have es : initSteps cwd w = (initFolders cwd w, .error e) := by
      unfold initSteps
      rw [projectFile_after hl, hp]
    rw [es]
    exact folders n
  | ok d =>
    have es : initSteps cwd w = (initFolders cwd w ++ [.empty (pathJoin cwd "zenlytic_project.yml".toList),
        .write (pathJoin cwd "zenlytic_project.yml".toList) (.dict d)], .ok ()) := by
      unfold initSteps
      rw [projectFile_after hl, hp]
    rw [es]
    have hall := folders (initFolders cwd w).length
    rw [List.take_length] at hall
    have put : ∀ w1 v, Between cwd base w w1 → Between cwd base w { w1 with files := putFile w1.files (base ++ ["zenlytic_project.yml".toList]) v } := by
      intro w1 v h1
      refine ⟨h1.kept, h1.new, fun q x hq => ?_, fun e he => (by rw [hp] at he; cases he), ?_⟩
      · unfold FileAt
        show _ ∈ putFile _ _ _ ↔ _
        rw [mem_putFile]
        constructor
        · rintro (⟨hc, _⟩ | ⟨_, hx⟩)
          · exact absurd hc hq
          · exact (h1.files q x hq).1 hx
        · intro hx
          exact .inr ⟨hq, (h1.files q x hq).2 hx⟩
      · show readFile (putFile _ _ _) _ = _
        rw [readFile_put v hz]
        exact h1.read
    simp only
    rw [List.take_append]
    unfold runSteps at *
    rw [List.foldl_append]
    by_cases hm : n ≤ (initFolders cwd w).length
    · rw [Nat.sub_eq_zero_of_le hm]
      exact folders n
    · rw [List.take_of_length_le (by omega)]
      obtain ⟨k, hk⟩ : ∃ k, n - (initFolders cwd w).length = k + 1 := ⟨n - (initFolders cwd w).length - 1, by omega⟩
      rw [hk, List.take_succ_cons, List.foldl_cons]
      have h1 : CliStep.run (List.foldl CliStep.run w (initFolders cwd w)) (.empty (pathJoin cwd "zenlytic_project.yml".toList)) =
          { List.foldl CliStep.run w (initFolders cwd w) with
            files := putFile (List.foldl CliStep.run w (initFolders cwd w)).files (base ++ ["zenlytic_project.yml".toList]) .null } := by
        simp only [CliStep.run]
        rw [zen_place hl]
      cases k with
      | zero =>
        rw [List.take_zero, List.foldl_nil, h1]
        exact put _ _ hall
      | succ k =>
        rw [List.take_succ_cons, List.take_nil, List.foldl_cons, List.foldl_nil, h1]
        have h2 : ∀ w1 : WorkDir, CliStep.run w1 (.write (pathJoin cwd "zenlytic_project.yml".toList) (.dict d)) =
            { w1 with files := putFile w1.files (base ++ ["zenlytic_project.yml".toList]) (.dict d) } := by
          intro w1
          simp only [CliStep.run]
          rw [zen_place hl]
        rw [h2]
        exact put _ _ (put _ _ hall)

/-- C72. However often `init` is interrupted, after whichever step, running it again gives what it would have given at once; in particular, running it
twice is running it once. -/
theorem C72_init_again (cwd : PathText) (base : List PathName) (hl : Leads cwd base) (w : WorkDir) (n : ℕ) :
    (cliInit cwd (runSteps w ((initSteps cwd w).1.take n))).2 = (cliInit cwd w).2 ∧
    SameDisk (cliInit cwd (runSteps w ((initSteps cwd w).1.take n))).1 (cliInit cwd w).1 :=
  between_same hl (between_take hl w n)

/-- C72. Wherever `init` is interrupted, no file is lost or changed but for the project file, and no folder is lost. -/
theorem C72_init_keeps (cwd : PathText) (base : List PathName) (hl : Leads cwd base) (w : WorkDir) (n : ℕ) :
    (∀ place v, place ≠ base ++ ["zenlytic_project.yml".toList] →
      (FileAt (runSteps w ((initSteps cwd w).1.take n)) place v ↔ FileAt w place v)) ∧
    ∀ place, place ∈ w.dirs → place ∈ (runSteps w ((initSteps cwd w).1.take n)).dirs :=
  ⟨fun q x hq => (between_take hl w n).files q x hq, (between_take hl w n).kept⟩

end ML
