import Mathlib.Logic.Function.Basic
import Mathlib.Data.List.Basic
import Verif.Spec.Remote

/-!
# Model: the data cache (pymoo/util/remote.py)

Any number of processes call `Remote.load` at the same time on the same cache folder. A step of a process is one operation on the file system or the network; it may succeed, raise an exception, or the process
may be stopped there (kill, power failure, KeyboardInterrupt, which `except Exception` does not catch). Bytes are natural numbers.

Assumptions (contracts of Python and the operating system): `urlopen(...).read()` returns the complete data or raises; `tempfile.mkstemp` creates a new file with a name that did not exist and readable by its
owner only; `os.replace` is atomic; reading a file yields the content of one file. No other program writes in the folder, and data files are not named like temporary files. Directories, the timeout and the
parsing of the file (`np.loadtxt`, `json.load`) are not modelled.
-/

namespace Model

/-- Paths in the cache folder: `join(folder, *args)` (remote.py:107) and the temporary files (remote.py:75). -/
inductive RPath (A : Type)
  | dest (a : A)
  | temp (k : ℕ)
  deriving DecidableEq

/-- A file: content, owner, and whether only the owner may read it. -/
structure RFile where
  data : List ℕ
  owner : ℕ
  priv : Bool
  deriving DecidableEq

/-- What `server/<args>` has, and the copy bundled in the package (`none` also if there is no such folder). -/
structure REnv (A : Type) where
  server : A → List ℕ
  bundled : A → Option (List ℕ)

/-- Where a call of `load` is. -/
inductive RPc
  | start
  | checkBundled
  | mkTemp
  | request (k : ℕ)
  | openTemp (k : ℕ) (d : List ℕ)
  | write (k : ℕ) (d : List ℕ) (n : ℕ)
  | rename (k : ℕ) (d : List ℕ)
  | cleanup (k : ℕ)
  | readDest
  | readBundled
  | done (d : List ℕ)
  | failed
  | killed (held : Option ℕ)
  deriving DecidableEq

/-- A call of `load(*args)` by a process of user `user`. -/
structure RProc (A : Type) where
  user : ℕ
  args : A
  pc : RPc

/-- What happens in a step: the operation succeeds (with a number: the name proposed by mkstemp, or how many more bytes reach the disk), raises, or the process stops. -/
inductive RChoice
  | go (m : ℕ)
  | raise
  | kill

/-- The temporary file a call has created and not yet renamed or removed. -/
def RPc.held : RPc → Option ℕ
  | .request k => some k
  | .openTemp k _ => some k
  | .write k _ _ => some k
  | .rename k _ => some k
  | .cleanup k => some k
  | .killed h => h
  | _ => none

abbrev RFS (A : Type) := RPath A → Option RFile

variable {A : Type} [DecidableEq A]

/-- remote.py:65-123 `load` and `_download`: one step. -/
def rAct (env : REnv A) (c : RChoice) (u : ℕ) (a : A) (fs : RFS A) (pc : RPc) : RFS A × RPc :=
  match c with
  | .kill => match pc with
    | .done d => (fs, .done d)
    | .failed => (fs, .failed)
    | pc => (fs, .killed pc.held)
  | .raise => match pc with
    -- remote.py:83-90: the handler
    | .request k => (fs, .cleanup k)
    | .openTemp k _ => (fs, .cleanup k)
    | .write k _ _ => (fs, .cleanup k)
    | .rename k _ => (fs, .cleanup k)
    | .cleanup k => (fs, .cleanup k)
    | .done d => (fs, .done d)
    | .killed h => (fs, .killed h)
    | _ => (fs, .failed)
  | .go m => match pc with
    -- remote.py:109
    | .start => if (fs (.dest a)).isSome then (fs, .readDest) else (fs, .checkBundled)
    -- remote.py:111-115
    | .checkBundled => if (env.bundled a).isSome then (fs, .readBundled) else (fs, .mkTemp)
    -- remote.py:75: mkstemp tries another name if the file exists
    | .mkTemp => if (fs (.temp m)).isSome then (fs, .mkTemp) else (Function.update fs (.temp m) (some ⟨[], u, true⟩), .request m)
    -- remote.py:78-79
    | .request k => (fs, .openTemp k (env.server a))
    -- remote.py:80: the file is truncated
    | .openTemp k d => (Function.update fs (.temp k) ((fs (.temp k)).map fun f => { f with data := [] }), .write k d 0)
    -- remote.py:81: some more bytes
    | .write k d n => (Function.update fs (.temp k) ((fs (.temp k)).map fun f => { f with data := d.take (n + m) }), if d.length ≤ n + m then .rename k d else .write k d (n + m))
    -- remote.py:82
    | .rename k _ => (Function.update (Function.update fs (.dest a) (fs (.temp k))) (.temp k) none, .readDest)
    -- remote.py:84-86
    | .cleanup k => (Function.update fs (.temp k) none, .failed)
    -- remote.py:117-123: the file is read
    | .readDest => match fs (.dest a) with
      | some f => if f.priv && f.owner != u then (fs, .failed) else (fs, .done f.data)
      | none => (fs, .failed)
    | .readBundled => match env.bundled a with
      | some d => (fs, .done d)
      | none => (fs, .failed)
    | .done d => (fs, .done d)
    | .failed => (fs, .failed)
    | .killed h => (fs, .killed h)

/-- The files and the processes. -/
structure RState (A : Type) where
  fs : RFS A
  procs : ℕ → RProc A

/-- Process `i` makes a step. -/
def rStep (env : REnv A) (s : RState A) (ic : ℕ × RChoice) : RState A :=
  let p := s.procs ic.1
  let r := rAct env ic.2 p.user p.args s.fs p.pc
  ⟨r.1, Function.update s.procs ic.1 { p with pc := r.2 }⟩

/-- A schedule: which process makes a step, and what happens in it. -/
def rRun (env : REnv A) (s : RState A) (l : List (ℕ × RChoice)) : RState A := l.foldl (rStep env) s

/-- remote.py:18-29 `_user_cache_dir`: the values of the three environment variables (`none` = not set) and what `expanduser("~")` yields; paths are lists of components. -/
def userCacheDir (dataDir xdg : Option String) (home : String) : List String :=
  match dataDir.filter (· ≠ "") with
  | some d => [d]
  | none => [((xdg.filter (· ≠ "")).getD (home ++ "/.cache")), "pymoo"]

end Model
