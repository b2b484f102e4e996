import Verif.Clone.Model
/-
What C71 says, without the program: which commands a call means, what a disk that behaves is, what a private file is.
-/
set_option autoImplicit false
namespace ML.Spec

/-- A call ended by itself: it returned or raised an exception; no interrupt arrived and the process was not killed. -/
def Ended {α : Type} (r : Except Halt α) : Prop := (∃ a, r = .ok a) ∨ ∃ e, r = .error (.raised e)

/-- The disk takes what is written to it, and removes what it is told to. -/
def DiskWorks (fate : Fate) : Prop :=
  ∀ n partly, fate n .write ≠ .fails partly ∧ fate n .close ≠ .fails partly ∧ fate n .remove ≠ .fails partly

/-- Every step is done, but those of one kind. -/
def AllDoneBut (k : Doing) (o : Outcome) : Fate := fun _ k' => if k' = k then o else .done

/-- No interrupt arrives. -/
def NoInterrupt (fate : Fate) : Prop := ∀ n k late, fate n k ≠ .interrupted late

/-- Nothing that can be read by others has anything in it: the path is free, a folder, an empty file, or a file only its owner may read. -/
def Unexposed (n : Option CNode) : Prop := ∀ c, n = some (.file c false) → c = []

/-- What git is to do for an operation: make a branch, check it out and push it; push the deletion of a branch; check the branch out, add
everything, commit, push; check the target out, pull the source, push the target; check the target out, merge the source into one commit, push. -/
inductive MeansGit : GOp → List GitCmd → Prop
  | create (b : String) : MeansGit (.createBranch b) [.newBranch b, .checkout b, .pushNew b]
  | delete (b : String) : MeansGit (.deleteBranch b) [.pushDelete b]
  | commit (m b : String) : MeansGit (.commitAndPush m b) [.checkout b, .addAll, .commit m, .push b]
  | pull (s t : String) : MeansGit (.pull s t) [.checkout t, .pull s, .push t]
  | squash (s t m : String) (h : m ≠ "") : MeansGit (.squashAndMerge s t (some m)) [.checkout t, .mergeSquash s, .commit m, .push t]
  | squashUnnamed (s t : String) (m : Option String) (h : m = none ∨ m = some "") :
      MeansGit (.squashAndMerge s t m) [.checkout t, .mergeSquash s, .commit ("Squash and merge " ++ s ++ " into " ++ t), .push t]

/-- The repository is reached over SSH. -/
def OverSsh (r : GRepo) : Prop := "git@".toList <+: r.url.toList

/-- The paths a call may use for a key: the one `fetch` makes up. -/
def NewKeyPath : GCall → String → Prop
  | .fetch _ p, q => q = p
  | _, _ => False

/-- The key of a call is bytes, if there is one. -/
def KeyIsBytes : GCall → Prop
  | .fetch k _ => ∀ x, k = some x → ∃ b, x = .bytes b
  | .op _ k => ∀ x, k = some x → ∃ b, x = .bytes b
  | .delete => True

/-- What the remote answers to `ls-remote`: a line for each of its references, with its hash, a tab and its name. -/
def LsRemote (refs : List (List Char × List Char)) : List Char :=
  (refs.map fun r => r.1 ++ '\t' :: r.2).intersperse ['\n'] |>.flatten

end ML.Spec
