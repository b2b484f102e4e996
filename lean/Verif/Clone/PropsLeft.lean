import Verif.Clone.PropsFaults
/-
C71: what is left behind after interrupts, kills and failures; the clone of a project that is loaded.
-/
set_option autoImplicit false
namespace ML
open Spec

/-- A step that is done. -/
theorem step_done {k : Doing} {refused : CWorld → Option Err} {eff partly : CWorld → CWorld} {fate : Fate} {w : CWorld}
    (hf : fate w.clock k = .done) (hr : refused w = none) :
    step k refused eff partly fate w = (.ok (), eff { w with clock := w.clock + 1 }) := by
  unfold step
  simp only [hf, hr]

/-- The key is written: the file is open, the key is written, its owner alone may read it, it is closed. -/
theorem writeKey_done {buffer : Nat} {b : List UInt8} {p : String} {fate : Fate}
    (hf : ∀ n, fate n .openFile = .done ∧ fate n .write = .done ∧ fate n .chmod = .done ∧ fate n .close = .done) {w : CWorld}
    (h0 : w.disk p = none) :
    ∃ w', writeKey buffer (.bytes b) p fate w = (.ok (), w') ∧ w'.disk = w.disk.put p (some (.file b true)) ∧ w'.given = w.given ∧
      w'.fetched = w.fetched := by
  have hput : ∀ (d : CDisk) (m n : Option CNode), (d.put p m).put p n = d.put p n := by
    intro d m n; funext q; simp only [CDisk.put]; split <;> rfl
  simp only [writeKey, CAct.andThen, CAct.closing]
  rw [step_done (hf _).1 (by rw [h0]; simp)]
  simp only [writeBytes]
  rw [step_done (hf _).2.1 rfl]
  simp only [CAct.orElse, chmodFile, closeFile, step, (hf _).2.2.1, (hf _).2.2.2]
  by_cases hb : b.length ≤ buffer
  · simp [hb, h0, truncated, appended, put_same, hput]
  · simp [hb, h0, truncated, appended, put_same, hput]

theorem allDoneBut_other {k k' : Doing} (o : Outcome) (n : Nat) (h : k' ≠ k) : AllDoneBut k o n k' = .done := by simp [AllDoneBut, h]

theorem allDoneBut_same (k : Doing) (o : Outcome) (n : Nat) : AllDoneBut k o n k = o := by simp [AllDoneBut]

/-- C71. False of interrupts: one that arrives while git works (`Ctrl-C` during a clone), or the end of the process, leaves the whole key in its
file, for good. -/
theorem C71_interrupted (r : GRepo) (hs : OverSsh r) (b : List UInt8) (p : String) (hpd : p ≠ r.dest) (w : CWorld) (h0 : w.disk p = none)
    (o : Outcome) (ho : ∃ late, o = .interrupted late ∨ o = .killed late) :
    (gcall r (.fetch (some (.bytes b)) p) (AllDoneBut .git o) w).2.disk p = some (.file b true) := by
  have hssh : r.isSsh = true := List.isPrefixOf_iff_prefix.2 hs
  obtain ⟨w1, h1, h2, -, -⟩ := writeKey_done (buffer := r.buffer) (b := b) (fate := AllDoneBut .git o)
    (fun n => ⟨allDoneBut_other o n (by decide), allDoneBut_other o n (by decide), allDoneBut_other o n (by decide),
      allDoneBut_other o n (by decide)⟩) h0
  have hp1 : w1.disk p = some (.file b true) := by rw [h2, put_same]
  simp only [gcall, fetchRepo, hssh, if_true]
  unfold fetchSsh
  have hclone := keeps_at_clone p (some (.file b true)) (some p) r.url r.dest r.branch hpd (AllDoneBut .git o) w1 hp1
  simp only [CAct.andThen, h1, CAct.orElse]
  cases hc : gitClone (some p) r.url r.dest r.branch (AllDoneBut .git o) w1 with
  | mk x w2 =>
    rw [hc] at hclone
    have hx : x = .error .interrupted ∨ x = .error .killed := by
      unfold gitClone step at hc
      simp only [allDoneBut_same] at hc
      obtain ⟨late, rfl | rfl⟩ := ho
      · exact .inl (Prod.mk.inj hc).1.symm
      · exact .inr (Prod.mk.inj hc).1.symm
    rcases hx with rfl | rfl
    · exact hclone
    · exact hclone

/-- C71. The same of an operation on the repository. -/
theorem C71_interrupted_op (r : GRepo) (op : GOp) (b : List UInt8) (hb : b ≠ []) (p : String) (f : Fetched) (w : CWorld)
    (hw : w.fetched = some f) (hp : f.filePath = some p) (h0 : w.disk p = none) (o : Outcome)
    (ho : ∃ late, o = .interrupted late ∨ o = .killed late) :
    (gcall r (.op op (some (.bytes b))) (AllDoneBut .git o) w).2.disk p = some (.file b true) := by
  obtain ⟨w1, h1, h2, -, -⟩ := writeKey_done (buffer := r.buffer) (b := b) (fate := AllDoneBut .git o)
    (fun n => ⟨allDoneBut_other o n (by decide), allDoneBut_other o n (by decide), allDoneBut_other o n (by decide),
      allDoneBut_other o n (by decide)⟩) h0
  have hp1 : w1.disk p = some (.file b true) := by rw [h2, put_same]
  have htr : (PyKey.bytes b).truthy = true := by
    cases b with
    | nil => exact absurd rfl hb
    | cons a l => rfl
  simp only [gcall]
  unfold sshWrapped
  rw [hw]
  simp only [hp, Option.filter, htr, if_true]
  have hg := keeps_disk_gits (fun d => d p = some (.file b true)) (some p) op.cmds (AllDoneBut .git o) w1 hp1
  simp only [CAct.andThen, h1, CAct.orElse]
  cases hc : gits (some p) op.cmds (AllDoneBut .git o) w1 with
  | mk x w2 =>
    rw [hc] at hg
    have hx : x = .error .interrupted ∨ x = .error .killed := by
      have hne : ∃ c cs, op.cmds = c :: cs := by cases op <;> exact ⟨_, _, rfl⟩
      obtain ⟨c, cs, hcs⟩ := hne
      rw [hcs] at hc
      unfold gits CAct.andThen git step at hc
      simp only [allDoneBut_same] at hc
      obtain ⟨late, rfl | rfl⟩ := ho
      · exact .inl (Prod.mk.inj hc).1.symm
      · exact .inr (Prod.mk.inj hc).1.symm
    rcases hx with rfl | rfl
    · exact hg
    · exact hg

/-- C71. False of an interrupt between writing the key and `chmod`: others can read the whole key, for good. So they can, until the process ends or
the file is removed, when the key does not fit into the buffer: here the process is killed at that time. -/
theorem C71_exposed (r : GRepo) (hs : OverSsh r) (b : List UInt8) (p : String) (w : CWorld) (h0 : w.disk p = none) :
    (gcall r (.fetch (some (.bytes b)) p) (AllDoneBut .chmod (.interrupted false)) w).2.disk p = some (.file b false) ∧
    (r.buffer < b.length → (gcall r (.fetch (some (.bytes b)) p) (AllDoneBut .chmod (.killed false)) w).2.disk p = some (.file b false)) := by
  have hssh : r.isSsh = true := List.isPrefixOf_iff_prefix.2 hs
  have hput : ∀ (d : CDisk) (m n : Option CNode), (d.put p m).put p n = d.put p n := by
    intro d m n; funext q; simp only [CDisk.put]; split <;> rfl
  constructor
  · simp only [gcall, fetchRepo, hssh, if_true, fetchSsh, writeKey, CAct.andThen, CAct.closing]
    rw [step_done (allDoneBut_other _ _ (by decide)) (by rw [h0]; simp)]
    simp only [writeBytes]
    rw [step_done (allDoneBut_other _ _ (by decide)) rfl]
    simp only [CAct.orElse, chmodFile, step, allDoneBut_same, closeFile]
    by_cases hb : b.length ≤ r.buffer
    · simp [hb, AllDoneBut, h0, truncated, appended, put_same, hput]
    · simp [hb, AllDoneBut, h0, truncated, appended, put_same, hput]
  · intro hb
    simp only [gcall, fetchRepo, hssh, if_true, fetchSsh, writeKey, CAct.andThen, CAct.closing]
    rw [step_done (allDoneBut_other _ _ (by decide)) (by rw [h0]; simp)]
    simp only [writeBytes]
    rw [step_done (allDoneBut_other _ _ (by decide)) rfl]
    simp only [CAct.orElse, chmodFile, step, allDoneBut_same]
    simp [Nat.not_le.2 hb, h0, truncated, appended, put_same]

/-- C71. A key given as text, as the annotations have it, raises a TypeError, and an empty file is left, which others can read; so is one when
nothing can be written to the disk. -/
theorem C71_text (r : GRepo) (hs : OverSsh r) (p : String) (w : CWorld) (h0 : w.disk p = none) (s : String) (b : List UInt8) :
    (gcall r (.fetch (some (.text s)) p) (fun _ _ => .done) w).1 = .error (.raised .typeError) ∧
    (gcall r (.fetch (some (.text s)) p) (fun _ _ => .done) w).2.disk p = some (.file [] false) ∧
    (gcall r (.fetch (some (.bytes b)) p) (AllDoneBut .write (.fails false)) w).2.disk p = some (.file [] false) := by
  have hssh : r.isSsh = true := List.isPrefixOf_iff_prefix.2 hs
  have hput : ∀ (d : CDisk) (m n : Option CNode), (d.put p m).put p n = d.put p n := by
    intro d m n; funext q; simp only [CDisk.put]; split <;> rfl
  have hopen : ∀ fate : Fate, fate w.clock .openFile = .done → step .openFile (fun w => if w.disk p = some .folder then some .other else none)
      (fun w => { w with disk := w.disk.put p (some (truncated (w.disk p))), pending := [] }) id fate w = (.ok (), _) :=
    fun fate hf => step_done hf (by rw [h0]; simp)
  refine ⟨?_, ?_, ?_⟩
  · simp only [gcall, fetchRepo, hssh, if_true, fetchSsh, writeKey, CAct.andThen, CAct.closing]
    rw [hopen _ rfl]
    simp [writeBytes, CAct.raise, closeFile, step]
  · simp only [gcall, fetchRepo, hssh, if_true, fetchSsh, writeKey, CAct.andThen, CAct.closing]
    rw [hopen _ rfl]
    simp [writeBytes, CAct.raise, closeFile, step, h0, truncated, appended, put_same]
  · simp only [gcall, fetchRepo, hssh, if_true, fetchSsh, writeKey, CAct.andThen, CAct.closing]
    rw [hopen _ (allDoneBut_other _ _ (by decide))]
    simp [writeBytes, closeFile, step, AllDoneBut, h0, truncated, appended, put_same]

/-! ### `chmod` fails -/

theorem writeKey_chmod {buffer : Nat} {b : List UInt8} {p : String} {w : CWorld} (h0 : w.disk p = none) :
    ∃ w', writeKey buffer (.bytes b) p (AllDoneBut .chmod (.fails false)) w = (.ok (), w') ∧ w'.disk = w.disk ∧ w'.given = w.given ∧
      w'.fetched = w.fetched := by
  have hput : ∀ (d : CDisk) (m n : Option CNode), (d.put p m).put p n = d.put p n := by
    intro d m n; funext q; simp only [CDisk.put]; split <;> rfl
  have hnone : w.disk.put p none = w.disk := by
    funext q; simp only [CDisk.put]; split
    · rename_i h; rw [h, h0]
    · rfl
  simp only [writeKey, CAct.andThen, CAct.closing]
  rw [step_done (allDoneBut_other _ _ (by decide)) (by rw [h0]; simp)]
  simp only [writeBytes]
  rw [step_done (allDoneBut_other _ _ (by decide)) rfl]
  simp only [CAct.orElse, chmodFile, removeFile, closeFile, step, AllDoneBut]
  by_cases hb : b.length ≤ buffer
  · simp [hb, h0, truncated, appended, put_same, hput, hnone]
  · simp [hb, h0, truncated, appended, put_same, hput, hnone]

theorem gits_done {env : Option String} {cs : List GitCmd} {fate : Fate} (hf : ∀ n, fate n .git = .done) {w : CWorld} :
    ∃ w', gits env cs fate w = (.ok (), w') := by
  induction cs generalizing w with
  | nil => exact ⟨w, rfl⟩
  | cons c cs ih =>
    unfold gits CAct.andThen git
    rw [step_done (hf _) rfl]
    exact ih

/-- C71. When `chmod` fails the key file is removed at once, the operation is carried out all the same, its commands without a key, and when they
all have worked an exception is raised, for the key file can no longer be removed. -/
theorem C71_chmod (r : GRepo) (op : GOp) (cs : List GitCmd) (hm : MeansGit op cs) (b : List UInt8) (hb : b ≠ []) (p : String) (f : Fetched)
    (w : CWorld) (hw : w.fetched = some f) (hp : f.filePath = some p) (h0 : w.disk p = none) :
    (gcall r (.op op (some (.bytes b))) (AllDoneBut .chmod (.fails false)) w).1 = .error (.raised .other) ∧
    (gcall r (.op op (some (.bytes b))) (AllDoneBut .chmod (.fails false)) w).2.given = w.given ++ cs.map (fun c => ⟨c, some p, none⟩) := by
  obtain ⟨w1, h1, h2, h3, -⟩ := writeKey_chmod (buffer := r.buffer) (b := b) h0
  have htr : (PyKey.bytes b).truthy = true := by
    cases b with
    | nil => exact absurd rfl hb
    | cons a l => rfl
  obtain ⟨w2, h4⟩ := gits_done (env := some p) (cs := cs) (fate := AllDoneBut .chmod (.fails false))
    (fun n => allDoneBut_other _ n (by decide)) (w := w1)
  obtain ⟨hd, -, t, hg, -, ht⟩ := gits_any h4
  rw [ht () rfl] at hg
  have hp2 : w2.disk p = none := by rw [hd, h2, h0]
  have hmp : ∀ c : GitCmd, (⟨c, some p, (some p).bind w1.disk⟩ : CGiven) = ⟨c, some p, none⟩ := by
    intro c; simp [h2, h0]
  have hrun : gcall r (.op op (some (.bytes b))) (AllDoneBut .chmod (.fails false)) w =
      (.error (.raised .other), { w2 with clock := w2.clock + 1 + 1 }) := by
    simp only [gcall]
    unfold sshWrapped
    rw [hw]
    simp only [hp, Option.filter, htr, if_true, means_cmds hm, CAct.andThen, h1, CAct.orElse, h4]
    simp [removeFile, step, AllDoneBut, hp2]
  rw [hrun]
  refine ⟨rfl, ?_⟩
  show w2.given = _
  rw [hg, h3]
  simp only [hmp]

/-- C71. A `fetch` whose `chmod` fails raises an UnboundLocalError, after having cloned the repository, which stays. -/
theorem C71_chmod_fetch (r : GRepo) (hs : OverSsh r) (b : List UInt8) (p : String) (hpd : p ≠ r.dest) (w : CWorld) (h0 : w.disk p = none)
    (hd0 : w.disk r.dest = none) :
    (gcall r (.fetch (some (.bytes b)) p) (AllDoneBut .chmod (.fails false)) w).1 = .error (.raised .unboundLocal) ∧
    (gcall r (.fetch (some (.bytes b)) p) (AllDoneBut .chmod (.fails false)) w).2.disk r.dest = some .folder := by
  have hssh : r.isSsh = true := List.isPrefixOf_iff_prefix.2 hs
  obtain ⟨w1, h1, h2, h3, -⟩ := writeKey_chmod (buffer := r.buffer) (b := b) h0
  simp only [gcall, fetchRepo, hssh, if_true, fetchSsh, CAct.andThen, h1, CAct.orElse]
  have hp1 : w1.disk p = none := by rw [h2, h0]
  have hd1 : w1.disk r.dest = none := by rw [h2, hd0]
  simp [gitClone, branchOptions, git, step, removeFile, AllDoneBut, CAct.andThen, CAct.orElse, CAct.ret, CAct.raise, hp1, hd1, put_same,
    put_other _ _ hpd]

/-! ### The clone -/

/-- C71. `fetch` again over SSH always raises, for the clone is there; over HTTPS the clone is made anew. -/
theorem C71_again (r : GRepo) (k : Option PyKey) (p : String) (hpd : p ≠ r.dest) (w : CWorld) (hw : w.disk r.dest = some .folder) :
    (OverSsh r → ∀ fate u, (gcall r (.fetch k p) fate w).1 ≠ .ok u) ∧
    (¬ OverSsh r → (gcall r (.fetch k p) (fun _ _ => .done) w).1 = .ok ()) := by
  constructor
  · intro hs fate u h
    have hssh : r.isSsh = true := List.isPrefixOf_iff_prefix.2 hs
    have h' : gcall r (.fetch k p) fate w = (.ok u, _) := Prod.ext h rfl
    simp only [gcall, fetchRepo, hssh, if_true] at h'
    cases k with
    | none => exact nomatch (Prod.mk.inj h').1
    | some k =>
      obtain ⟨bs, w1, h1, -⟩ := andThen_ok h'
      obtain ⟨_, w2, h3, h4⟩ := andThen_ok h1
      have hd2 : w2.disk r.dest = some .folder := by
        have := keeps_at_write r.dest p (some .folder) hpd.symm r.buffer k fate w hw
        rw [h3] at this
        exact this
      rcases orElse_ok h4 with h5 | ⟨e, w3, -, h5⟩
      · obtain ⟨⟨⟩, w3, h6, -⟩ := andThen_ok h5
        rw [((clone_any h6).2.2 () rfl).1] at hd2
        exact nomatch hd2
      · obtain ⟨rem, w3, -, h6⟩ := andThen_ok h5
        cases rem <;> exact nomatch (Prod.mk.inj h6).1
  · intro hs
    have hssh : r.isSsh = false := by
      cases h : r.isSsh with
      | false => rfl
      | true => exact absurd (List.isPrefixOf_iff_prefix.1 h) hs
    simp [gcall, fetchRepo, hssh, fetchHttps, CAct.andThen, removeFolder, hw, step, gitClone, branchOptions, git, CAct.orElse, CAct.ret,
      setFetched, put_same]

/-- C71. A project that was loaded leaves no clone, and no key, behind. -/
theorem C71_loaded (r : GRepo) (k : Option PyKey) (p : String) (hpd : p ≠ r.dest) (fate : Fate) (w w' : CWorld)
    (h : loadClone r k p fate w = (.ok (), w')) : w'.disk r.dest = none ∧ (OverSsh r → w'.disk p = none) ∧ (w.disk p = none → w'.disk p = none) := by
  obtain ⟨⟨⟩, w1, h1, h2⟩ := andThen_ok h
  obtain ⟨⟨⟩, w2, h3, h4⟩ := andThen_ok h2
  obtain ⟨-, -, rfl⟩ := step_ok h3
  obtain ⟨hd, hssh, hnot⟩ := C71_fetch r k p hpd fate w w1 h1
  unfold removeFolder at h4
  rw [if_pos (by exact hd)] at h4
  obtain ⟨-, -, rfl⟩ := step_ok h4
  refine ⟨put_same _ _ _, fun hs => ?_, fun h0 => ?_⟩
  · obtain ⟨b, bs, -, hp, -⟩ := hssh hs
    exact (put_other _ _ hpd).trans hp
  · by_cases hs : OverSsh r
    · obtain ⟨b, bs, -, hp, -⟩ := hssh hs
      exact (put_other _ _ hpd).trans hp
    · have := (C71_https r hs k p fate w p hpd).1
      rw [show gcall r (.fetch k p) fate w = _ from h1] at this
      exact (put_other _ _ hpd).trans (this.trans h0)

/-- C71. False when loading raises: if what was cloned cannot be read (a kind of repository that is not known, a file that is no dictionary), or
reading is interrupted, the clone stays for good. -/
theorem C71_clone_left (r : GRepo) (k : Option PyKey) (p : String) (hpd : p ≠ r.dest) (fate : Fate) (w w1 : CWorld)
    (h1 : gcall r (.fetch k p) fate w = (.ok (), w1)) (hf : fate w1.clock .read ≠ .done) :
    (∀ u, (loadClone r k p fate w).1 ≠ .ok u) ∧ (loadClone r k p fate w).2.disk r.dest = some .folder := by
  have hd := (C71_fetch r k p hpd fate w w1 h1).1
  have hx : fetchRepo r k p fate w = (.ok (), w1) := h1
  simp only [loadClone, CAct.andThen, hx, step]
  cases hr : fate w1.clock .read with
  | done => exact absurd hr hf
  | fails b => cases b <;> exact ⟨fun u h => (nomatch h), hd⟩
  | interrupted b => cases b <;> exact ⟨fun u h => (nomatch h), hd⟩
  | killed b => cases b <;> exact ⟨fun u h => (nomatch h), hd⟩

/-- C71. A branch with `/heads/` in its name is offered under the wrong name: only what follows. -/
theorem C71_branches_cut (hash a n : List Char) (hh : '\n' ∉ hash ∧ '/' ∉ hash) (ha : '\n' ∉ a ∧ '/' ∉ a) (hn : '\n' ∉ n)
    (hc : ¬ "/heads/".toList <:+: n) :
    parseLsRemote (String.ofList (LsRemote [(hash, "refs/heads/".toList ++ (a ++ ("/heads/".toList ++ n)))])) = [String.ofList n] := by
  have hline : LsRemote [(hash, "refs/heads/".toList ++ (a ++ ("/heads/".toList ++ n)))] =
      (hash ++ "\trefs".toList) ++ "/heads/".toList ++ (a ++ "/heads/".toList ++ n) := by
    simp [LsRemote]
  have hnl : '\n' ∉ (hash ++ "\trefs".toList) ++ "/heads/".toList ++ (a ++ "/heads/".toList ++ n) := by
    simp [hh.1, ha.1, hn]
  have hnot : '/' ∉ hash ++ "\trefs".toList := by
    rw [List.mem_append]; rintro (h | h)
    · exact hh.2 h
    · revert h; decide
  have hsplit : splitSub "/heads/".toList ((hash ++ "\trefs".toList) ++ "/heads/".toList ++ (a ++ "/heads/".toList ++ n)) =
      [hash ++ "\trefs".toList, a, n] := by
    have h1 := splitSub_first '/' "heads/".toList (hash ++ "\trefs".toList) (a ++ "/heads/".toList ++ n) hnot
    have h2 := splitSub_first '/' "heads/".toList a n ha.2
    have hh : ('/' :: "heads/".toList) = "/heads/".toList := rfl
    rw [hh] at h1 h2
    rw [h1, h2, splitSub_none _ _ (by cases hc' : containsSub "/heads/".toList n with
      | false => rfl
      | true => exact absurd ((containsSub_iff _ _).1 hc') hc)]
  have hin : containsSub "/heads/".toList ((hash ++ "\trefs".toList) ++ "/heads/".toList ++ (a ++ "/heads/".toList ++ n)) = true := by
    rw [containsSub_iff]; exact ⟨_, _, rfl⟩
  unfold parseLsRemote
  rw [hline, show (String.ofList ((hash ++ "\trefs".toList) ++ "/heads/".toList ++ (a ++ "/heads/".toList ++ n))).toList =
    (hash ++ "\trefs".toList) ++ "/heads/".toList ++ (a ++ "/heads/".toList ++ n) from String.toList_ofList, splitChars_noSep _ _ hnl,
    List.filter_cons, if_pos hin, List.filter_nil, List.map_cons, List.map_nil, hsplit]
  rfl

/-! ### A repository, and what becomes of it -/

/-- A repository reached over SSH, for examples. -/
def exGit : GRepo := ⟨"git@github.com:org/repo.git", "/lib/1234", "main", "a1\trefs/heads/main\nb2\trefs/heads/dev", 4096⟩

/-- A world with nothing on the disk, for examples. -/
def exEmpty : CWorld := ⟨fun _ => none, [], [], 0, none⟩

example : OverSsh exGit := ⟨"github.com:org/repo.git".toList, by decide +kernel⟩

example : (gcall exGit (.fetch (some (.bytes [1, 2, 3])) "/lib/key") (fun _ _ => .done) exEmpty).1 = .ok () := by decide +kernel

example : (gcall exGit (.fetch (some (.bytes [1, 2, 3])) "/lib/key") (fun _ _ => .done) exEmpty).2.fetched =
    some ⟨some "/lib/key", ["main", "dev"]⟩ := by decide +kernel

example : (ghistory exGit [.fetch (some (.bytes [1, 2, 3])) "/lib/key", .op (.createBranch "dev") (some (.bytes [1, 2, 3]))] (fun _ _ => .done)
    exEmpty).2.given.map (·.cmd) =
    [.clone exGit.url "/lib/1234" "main", .lsRemote, .newBranch "dev", .checkout "dev", .pushNew "dev"] := by decide +kernel

example : DiskWorks (AllDoneBut .git (.fails true)) := fun _ _ => ⟨by simp [AllDoneBut], by simp [AllDoneBut], by simp [AllDoneBut]⟩

example : Ended (gcall exGit (.fetch (some (.bytes [1, 2, 3])) "/lib/key") (AllDoneBut .git (.fails true)) exEmpty).1 :=
  .inr ⟨.other, by decide +kernel⟩

example : (loadClone exGit (some (.bytes [1, 2, 3])) "/lib/key" (fun _ _ => .done) exEmpty).1 = .ok () := by decide +kernel

example : NoInterrupt (AllDoneBut .chmod (.killed true)) := fun _ k l => by cases k <;> simp [AllDoneBut]

end ML
