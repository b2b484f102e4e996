import Verif.Basic
import Verif.MergePlan.Model
/-
The life of a cloned repository: `GithubRepo` of `metrics_layer/core/parse/github_repo.py`, and the part of
`metrics_layer/core/parse/project_loader.py` that fetches a repository and deletes it again.

Everything that touches the disk or runs git is a step. What becomes of each step is decided by a `Fate`, about which nothing is assumed: the step is
done, it fails with an exception (perhaps having done a part), an interrupt (`KeyboardInterrupt`, `SystemExit`: no `Exception`) arrives at it, or the
process is killed at it.
-/
set_option autoImplicit false
namespace ML

/-- What is at a path: a file, with its bytes and whether only its owner may read it, or a folder. Models the part of a file system that
`github_repo.py` 98-103, 186-191, 216-231 sees; simplified: of the permissions only whether they are `0o600`, of a folder only that it is there. -/
inductive CNode where
  | file (content : List UInt8) (owner : Bool)
  | folder
  deriving DecidableEq, Repr

/-- The disk: what is at each path. Models the file system of `github_repo.py` 98-103, 186-191, 216-231. -/
abbrev CDisk := String → Option CNode

/-- The disk with another thing at a path. Models `open`, `os.remove`, `shutil.rmtree` of `github_repo.py` 103, 188, 220, 227. -/
def CDisk.put (d : CDisk) (p : String) (n : Option CNode) : CDisk := fun q => if q = p then n else d q

/-- A `private_key` argument: `bytes`, or the `str` the annotations ask for. Models `github_repo.py` 93, 171, 216. -/
inductive PyKey where
  | bytes (b : List UInt8)
  | text (s : String)
  deriving DecidableEq, Repr

/-- `bool(private_key)`. Models `github_repo.py` 160. -/
def PyKey.truthy : PyKey → Bool
  | .bytes b => !b.isEmpty
  | .text s => !s.toList.isEmpty

/-- What git is told. Models the calls of GitPython in `github_repo.py` 109-156, 189, 199, 236. -/
inductive GitCmd where
  | clone (url dest branch : String)
  | lsRemote
  | newBranch (b : String)
  | checkout (b : String)
  | pushNew (b : String)
  | pushDelete (b : String)
  | addAll
  | commit (message : String)
  | push (b : String)
  | pull (b : String)
  | mergeSquash (b : String)
  deriving DecidableEq, Repr

/-- One command given to git: the command, the key file its environment names, and what was at that path when it was given. Models the environment
of `github_repo.py` 196-199, 211-213 (GitPython keeps the environment of the clone for the repository's later commands). -/
structure CGiven where
  cmd : GitCmd
  env : Option String
  key : Option CNode
  deriving DecidableEq, Repr

/-- The kinds of steps. Models the calls into the system of `github_repo.py` 102-103, 109-156, 164-166, 187-189, 199-204, 220-230, and reading the
clone, `project_loader.py` 46-59. -/
inductive Doing where
  | openFile | write | chmod | close | remove | git | rmtree | read
  deriving DecidableEq, Repr

/-- What becomes of a step. Models exceptions (`Exception`), interrupts (`BaseException` only) and the end of the process in
`github_repo.py` 158-231. -/
inductive Outcome where
  | done
  | fails (partly : Bool)
  | interrupted (late : Bool)
  | killed (late : Bool)
  deriving DecidableEq, Repr

/-- What becomes of the n-th step, if it is of a kind. No counterpart in the code: the environment of `github_repo.py` 81-250. -/
abbrev Fate := Nat → Doing → Outcome

/-- How a call ends when it does not return. Models `raise` of `github_repo.py` and what `except Exception` does not catch. -/
inductive Halt where
  | raised (e : Err)
  | interrupted
  | killed
  deriving DecidableEq, Repr

/-- What a `GithubRepo` holds after `fetch`: the path of its key file and the branches. Models `github_repo.py` 94-96. -/
structure Fetched where
  filePath : Option String
  branches : List String
  deriving DecidableEq, Repr

/-- The world: the disk, what was written to the open file but is not on the disk yet, the commands git was given, the number of steps so far, and
what `fetch` has set on the repository (`none`: nothing yet, the attributes do not exist). Models `github_repo.py` 82-96 and its surroundings. -/
structure CWorld where
  disk : CDisk
  pending : List UInt8
  given : List CGiven
  clock : Nat
  fetched : Option Fetched

/-- A piece of the program. Models the bodies of `github_repo.py` 93-250. -/
abbrev CAct (α : Type) := Fate → CWorld → Except Halt α × CWorld

/-- Return a value. Models `return`, `github_repo.py` 183, 209, 231. -/
def CAct.ret {α : Type} (a : α) : CAct α := fun _ w => (.ok a, w)

/-- Raise an exception. Models `raise`, `github_repo.py` 167, 174, 207. -/
def CAct.raise {α : Type} (e : Err) : CAct α := fun _ w => (.error (.raised e), w)

/-- One thing after the other. Models statements in sequence, `github_repo.py` 93-250. -/
def CAct.andThen {α β : Type} (x : CAct α) (f : α → CAct β) : CAct β := fun fate w =>
  match x fate w with
  | (.ok a, w') => f a fate w'
  | (.error h, w') => (.error h, w')

/-- `try: … except Exception as e: …`. Models `github_repo.py` 162-167, 198-207, 222-230, 235-240: interrupts and kills are not caught. -/
def CAct.orElse {α : Type} (x : CAct α) (f : Err → CAct α) : CAct α := fun fate w =>
  match x fate w with
  | (.error (.raised e), w') => f e fate w'
  | r => r

/-- `with open(…) as f:`: the file is closed however the body ends, unless the process is killed. Models `github_repo.py` 220-230. -/
def CAct.closing {α : Type} (x : CAct α) (fin : CAct Unit) : CAct α := fun fate w =>
  match x fate w with
  | (.error .killed, w') => (.error .killed, w')
  | (r, w') =>
    match fin fate w' with
    | (.ok (), w'') => (r, w'')
    | (.error h, w'') => (.error h, w'')

/-- One step: what it does when it is done, why it may be refused, what a failure may do of it. Models a call into the system,
`github_repo.py` 102-103, 109-156, 164-166, 187-189, 199-204, 220-230. -/
def step (k : Doing) (refused : CWorld → Option Err) (eff partly : CWorld → CWorld) : CAct Unit := fun fate w =>
  let w' := { w with clock := w.clock + 1 }
  match fate w.clock k with
  | .done => match refused w with
    | some e => (.error (.raised e), w')
    | none => (.ok (), eff w')
  | .fails part => (.error (.raised .other), if part then partly w' else w')
  | .interrupted late => (.error .interrupted, if late && (refused w).isNone then eff w' else w')
  | .killed late => (.error .killed, if late && (refused w).isNone then eff w' else w')

/-- `os.remove(path)`. Models `github_repo.py` 164, 166, 201, 204, 227. -/
def removeFile (p : String) : CAct Unit :=
  step .remove (fun w => if (w.disk p).isNone then some .other else none) (fun w => { w with disk := w.disk.put p none }) id

/-- What `open(path, "wb")` makes of what is there: an empty file, with the permissions it had. Models `github_repo.py` 220. -/
def truncated : Option CNode → CNode
  | some (.file _ o) => .file [] o
  | _ => .file [] false

/-- The file with more bytes at its end; nothing if it is no longer there. Models the writes of `github_repo.py` 220-221. -/
def appended (b : List UInt8) : Option CNode → Option CNode
  | some (.file c o) => some (.file (c ++ b) o)
  | n => n

/-- `f.write(private_key)`: text is a `TypeError`; bytes wait in the buffer if they fit into it, else they go to the disk (a failure leaves a first
part there). Models `github_repo.py` 221; simplified: what does not fit goes to the disk at once. -/
def writeBytes (buffer : Nat) (p : String) : PyKey → CAct Unit
  | .text _ => CAct.raise .typeError
  | .bytes b =>
    step .write (fun _ => none)
      (fun w => if b.length ≤ buffer then { w with pending := b } else { w with disk := w.disk.put p (appended b (w.disk p)) })
      (fun w => if b.length ≤ buffer then w else { w with disk := w.disk.put p (appended (b.take buffer) (w.disk p)) })

/-- `os.chmod(path, 0o600)`. Models `github_repo.py` 223. -/
def chmodFile (p : String) : CAct Unit :=
  step .chmod (fun w => if (w.disk p).isNone then some .other else none)
    (fun w => { w with disk := w.disk.put p (match w.disk p with
      | some (.file c _) => some (.file c true)
      | n => n) }) id

/-- Closing the file writes what waits in its buffer. Models the end of the `with` of `github_repo.py` 220. -/
def closeFile (p : String) : CAct Unit :=
  step .close (fun _ => none)
    (fun w => { w with disk := w.disk.put p (appended w.pending (w.disk p)), pending := [] }) (fun w => { w with pending := [] })

/-- `_write_private_key` with the path it uses. Models `github_repo.py` 215-231: when `chmod` fails the file is removed and the function goes on; when
the removal fails too its exception is raised. -/
def writeKey (buffer : Nat) (key : PyKey) (p : String) : CAct Unit :=
  (step .openFile (fun w => if w.disk p = some .folder then some .other else none)
    (fun w => { w with disk := w.disk.put p (some (truncated (w.disk p))), pending := [] }) id).andThen fun _ =>
  ((writeBytes buffer p key).andThen fun _ => (chmodFile p).orElse fun _ => removeFile p).closing (closeFile p)

/-- One command given to git. Models `github_repo.py` 109-156, 189, 199, 236; simplified: what git does in the clone and on the remote is not
modelled, `remote().push` (line 117) may report an error without raising, which counts as done. -/
def git (env : Option String) (c : GitCmd) : CAct Unit := fun fate w =>
  step .git (fun _ => none) id id fate { w with given := w.given ++ [⟨c, env, env.bind w.disk⟩] }

/-- `git.Repo.clone_from`: refused when the destination is there; a failure may leave it there. Models `github_repo.py` 189, 199. -/
def gitClone (env : Option String) (url dest branch : String) : CAct Unit := fun fate w =>
  step .git (fun w => if (w.disk dest).isSome then some .other else none)
    (fun w => { w with disk := w.disk.put dest (some .folder) }) (fun w => { w with disk := w.disk.put dest (some .folder) }) fate
    { w with given := w.given ++ [⟨.clone url dest branch, env, env.bind w.disk⟩] }

/-- `_parse_ls_remote`. Models `github_repo.py` 243-250. -/
def parseLsRemote (response : String) : List String :=
  ((splitChars '\n' response.toList).filter (containsSub "/heads/".toList)).map fun l =>
    String.ofList ((splitSub "/heads/".toList l).getLast?.getD [])

/-- The repository object: where it is, where it is cloned to, and what the remote answers to `ls-remote`. Models `github_repo.py` 82-91. -/
structure GRepo where
  url : String
  dest : String
  branch : String
  answer : String
  buffer : Nat
  deriving DecidableEq, Repr

/-- `is_ssh`. Models `github_repo.py` 84. -/
def GRepo.isSsh (r : GRepo) : Bool := isPrefix "git@".toList r.url.toList

/-- `_fetch_branch_options`. Models `github_repo.py` 233-241. -/
def branchOptions (r : GRepo) (env : Option String) : CAct (List String) :=
  ((git env .lsRemote).andThen fun _ => CAct.ret (parseLsRemote r.answer)).orElse fun _ => CAct.ret [r.branch]

/-- `shutil.rmtree` of a folder that is there. Models `github_repo.py` 102-103, 187-188. -/
def removeFolder (p : String) : CAct Unit := fun fate w =>
  if w.disk p = some .folder then
    step .rmtree (fun _ => none) (fun w => { w with disk := w.disk.put p none }) id fate w
  else (.ok (), w)

/-- `_fetch_github_repo_ssh`. Models `github_repo.py` 193-209; line 205 unbinds the name line 207 raises, so when the removal fails an
`UnboundLocalError` is raised. -/
def fetchSsh (r : GRepo) (key : PyKey) (p : String) : CAct (List String) :=
  (writeKey r.buffer key p).andThen fun _ =>
  ((gitClone (some p) r.url r.dest r.branch).andThen fun _ =>
    (branchOptions r (some p)).andThen fun bs =>
    (removeFile p).andThen fun _ => CAct.ret bs).orElse fun e =>
      (((removeFile p).andThen fun _ => CAct.ret true).orElse fun _ => CAct.ret false).andThen fun removed =>
      if removed then CAct.raise e else CAct.raise .unboundLocal

/-- `_fetch_github_repo_https`. Models `github_repo.py` 185-191. -/
def fetchHttps (r : GRepo) : CAct (List String) :=
  (removeFolder r.dest).andThen fun _ =>
  (gitClone none r.url r.dest r.branch).andThen fun _ => branchOptions r none

/-- Set what `fetch` sets. Models `github_repo.py` 94-96. -/
def setFetched (f : Fetched) : CAct Unit := fun _ w => (.ok (), { w with fetched := some f })

/-- `fetch`, with the path a new key file would get. Models `github_repo.py` 93-96, 171-183; simplified: `get_dbt_path` (C70) does not fail. -/
def fetchRepo (r : GRepo) (key : Option PyKey) (p : String) : CAct Unit :=
  if r.isSsh then
    match key with
    | none => CAct.raise .valueError
    | some k => (fetchSsh r k p).andThen fun bs => setFetched ⟨some p, bs⟩
  else (fetchHttps r).andThen fun bs => setFetched ⟨none, bs⟩

/-- Several commands, one after the other. Models the bodies of `github_repo.py` 109-156. -/
def gits (env : Option String) : List GitCmd → CAct Unit
  | [] => CAct.ret ()
  | c :: cs => (git env c).andThen fun _ => gits env cs

/-- The operations on a fetched repository. Models `github_repo.py` 105-156. -/
inductive GOp where
  | createBranch (b : String)
  | deleteBranch (b : String)
  | commitAndPush (message b : String)
  | pull (source target : String)
  | squashAndMerge (source target : String) (message : Option String)
  deriving DecidableEq, Repr

/-- The commands of an operation. Models `github_repo.py` 109-111, 117, 125-128, 136-138, 152-156. -/
def GOp.cmds : GOp → List GitCmd
  | .createBranch b => [.newBranch b, .checkout b, .pushNew b]
  | .deleteBranch b => [.pushDelete b]
  | .commitAndPush m b => [.checkout b, .addAll, .commit m, .push b]
  | .pull s t => [.checkout t, .pull s, .push t]
  | .squashAndMerge s t m =>
    let msg := match m with
      | some m => if m.toList.isEmpty then "Squash and merge " ++ s ++ " into " ++ t else m
      | none => "Squash and merge " ++ s ++ " into " ++ t
    [.checkout t, .mergeSquash s, .commit msg, .push t]

/-- `_ssh_wrapped`: the first look at `_file_path` is only made when there is a key, the first at `git_repo` only when a command is given; neither
attribute exists before `fetch`. Models `github_repo.py` 158-169. -/
def sshWrapped (r : GRepo) (op : GOp) (key : Option PyKey) : CAct Unit := fun fate w =>
  match w.fetched with
  | none => (.error (.raised .attributeError), w)
  | some f =>
    match key.filter PyKey.truthy, f.filePath with
    | some k, some p =>
      ((writeKey r.buffer k p).andThen fun _ =>
        ((gits (some p) op.cmds).andThen fun _ => removeFile p).orElse fun e =>
          (removeFile p).andThen fun _ => CAct.raise e) fate w
    | _, fp => gits fp op.cmds fate w

/-- The calls of a `GithubRepo`. Models `github_repo.py` 93-156. -/
inductive GCall where
  | fetch (key : Option PyKey) (fresh : String)
  | op (o : GOp) (key : Option PyKey)
  | delete
  deriving DecidableEq, Repr

/-- One call. Models `github_repo.py` 93-156; `delete` is the one without an argument, lines 98-103. -/
def gcall (r : GRepo) : GCall → CAct Unit
  | .fetch k p => fetchRepo r k p
  | .op o k => sshWrapped r o k
  | .delete => removeFolder r.dest

/-- A history of calls by someone who goes on after an exception. Models any use of `github_repo.py` 81-156. -/
def ghistory (r : GRepo) : List GCall → CAct Unit
  | [] => CAct.ret ()
  | c :: cs => ((gcall r c).orElse fun _ => CAct.ret ()).andThen fun _ => ghistory r cs

/-- Fetching a project and reading it: `fetch`, the reader, the commit's hash, `delete`. Models `project_loader.py` 44-60; simplified: reading
(C70) is one step that may fail and leaves the disk as it is. -/
def loadClone (r : GRepo) (key : Option PyKey) (p : String) : CAct Unit :=
  (fetchRepo r key p).andThen fun _ =>
  (step .read (fun _ => none) id id).andThen fun _ => removeFolder r.dest

end ML
