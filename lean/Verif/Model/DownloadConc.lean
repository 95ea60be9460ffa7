import Mathlib.Logic.Function.Basic
import Verif.Model.Download

/-!
# Several processes downloading at the same time (`ranx/io.py` `download`, `ranx/downloader.py`)

`Model/Download.lean` runs the calls of `download` one after the other. Here each call is a process that is
interrupted between any two system calls by any other process, or killed. Files are inodes: a process that has
opened a file keeps writing to it after it has been renamed.

Not modelled: the buffer of Python's file objects other than that a write may reach the disk in pieces of any
size; the creation of directories; the progress bar. The ids are file names without `..` and `/`-tricks, so that different
ids are different paths.
-/

namespace Ranx.Dl

variable {ι β : Type*}

/-- `~/.ranx_tmp/ID.rh` and `~/.ranx/ID.rh` (io.py:31-42) -/
inductive Path (ι : Type*) where
  | tmp (id : ι)
  | dst (id : ι)
  deriving DecidableEq

/-- directory entries and the contents of the inodes; `next` is an unused inode -/
structure FS (ι β : Type*) where
  entry : Path ι → Option Nat
  file : Nat → List β
  next : Nat

/-- where a call of `download(id)` is -/
inductive Pc (β : Type*) where
  /-- io.py:50 before `path.exists()` -/
  | start
  /-- downloader.py:55 before `requests.head(url)` -/
  | head
  /-- downloader.py:60 before `path.exists()`, the length of the answer to HEAD known -/
  | probe (online : Nat)
  /-- downloader.py:61 before `path.stat()` -/
  | stat (online : Nat)
  /-- downloader.py:31 before `requests.get`, resuming at the given position (0: not resuming) -/
  | get (resume : Nat)
  /-- downloader.py:43 before `open(path, mode)`, the answer at hand -/
  | fopen (resume : Nat) (received : List β)
  /-- downloader.py:44-45 the file opened: its inode, the position if the mode is `"wb"` (`none`: every write goes
  to the end of the file), and what is still to be written -/
  | copying (inode : Nat) (pos : Option Nat) (rest : List β)
  /-- io.py:52 before `tmp_path.rename(path)` -/
  | rename
  /-- io.py:54 before `load_lz4(path)` -/
  | load
  /-- io.py:54 the bytes read -/
  | loaded (content : List β)
  /-- an exception -/
  | failed (e : Err)
  /-- the process was killed -/
  | killed

structure Proc (ι β : Type*) where
  id : ι
  pc : Pc β

structure World (ι β : Type*) where
  fs : FS ι β
  procs : List (Proc ι β)

/-- the server: the `content-length` and the body of the answers about `id` -/
structure Server (ι β : Type*) where
  head : ι → Option Nat
  body : ι → Option Nat → List β

/-- `write` of some bytes at a position; a gap is filled with zero bytes -/
def pwrite (zero : β) (f : List β) (pos : Nat) (bytes : List β) : List β :=
  f.take pos ++ List.replicate (pos - f.length) zero ++ bytes ++ f.drop (pos + bytes.length)

variable [DecidableEq ι] (zero : β) (sv : Server ι β)

/-- `open(path, mode)` (downloader.py:34-36, 43) for `mode = "ab" if resume_byte_pos else "wb"`:
creates a missing file, `"wb"` empties an existing one -/
def openTmp (fs : FS ι β) (id : ι) (resume : Nat) : FS ι β × Nat :=
  match fs.entry (.tmp id) with
  | some i => (if resume ≠ 0 then fs else { fs with file := Function.update fs.file i [] }, i)
  | none =>
    ({ entry := Function.update fs.entry (.tmp id) (some fs.next),
       file := Function.update fs.file fs.next [], next := fs.next + 1 }, fs.next)

/-- one step of a call of `download(id)` (io.py:45-54, downloader.py:12-69): the file system and the place
afterwards; `n` is the number of bytes that reach the disk if the step is a write -/
def step (n : Nat) (fs : FS ι β) (id : ι) : Pc β → FS ι β × Pc β
  | .start => (fs, if (fs.entry (.dst id)).isSome then .load else .head)
  | .head => (fs, .probe ((sv.head id).getD 0))
  | .probe online => (fs, if (fs.entry (.tmp id)).isSome then .stat online else .get 0)
  | .stat online =>
    match fs.entry (.tmp id) with
    | none => (fs, .failed .osError)
    | some i => (fs, if online ≠ (fs.file i).length then .get (fs.file i).length else .rename)
  | .get resume => (fs, .fopen resume (sv.body id (if resume ≠ 0 then some resume else none)))
  | .fopen resume received =>
    let (fs', i) := openTmp fs id resume
    (fs', .copying i (if resume ≠ 0 then none else some 0) received)
  | .copying i pos rest =>
    match rest with
    | [] => (fs, .rename)
    | _ :: _ =>
      match pos with
      | none => ({ fs with file := Function.update fs.file i (fs.file i ++ rest.take n) },
          .copying i none (rest.drop n))
      | some p => ({ fs with file := Function.update fs.file i (pwrite zero (fs.file i) p (rest.take n)) },
          .copying i (some (p + (rest.take n).length)) (rest.drop n))
  | .rename =>
    match fs.entry (.tmp id) with
    | none => (fs, .failed .osError)
    | some i =>
      ({ fs with entry := Function.update (Function.update fs.entry (.tmp id) none) (.dst id) (some i) }, .load)
  | .load =>
    match fs.entry (.dst id) with
    | none => (fs, .failed .osError)
    | some i => (fs, .loaded (fs.file i))
  | .loaded f => (fs, .loaded f)
  | .failed e => (fs, .failed e)
  | .killed => (fs, .killed)

/-- what happens next: the process at an index makes a step (writing `n` bytes if it writes), or is killed -/
inductive Event where
  | go (k : Nat) (n : Nat)
  | kill (k : Nat)

/-- one event -/
def World.event (w : World ι β) : Event → World ι β
  | .go k n =>
    match w.procs[k]? with
    | none => w
    | some p =>
      ⟨(step zero sv n w.fs p.id p.pc).1, w.procs.set k ⟨p.id, (step zero sv n w.fs p.id p.pc).2⟩⟩
  | .kill k =>
    match w.procs[k]? with
    | none => w
    | some p => ⟨w.fs, w.procs.set k ⟨p.id, .killed⟩⟩

/-- a history of events -/
def World.run (w : World ι β) (es : List Event) : World ι β :=
  es.foldl (World.event zero sv) w

end Ranx.Dl
