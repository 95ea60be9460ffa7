import Mathlib.Tactic.TypeStar
import Verif.Model.Basic

/-!
# Downloading runs from ranxhub (`ranx/io.py` `download`, `ranx/downloader.py`)

One call of `download` is an *attempt*: what the server answers to HEAD and GET at that time, and where
the process is stopped (killed, power cut, connection error), if it is.  The state is the two files of one
id: the temporary one and the final one.  Only the progress bar and the creation of directories are left
out.
-/

namespace Ranx.Dl

variable {β : Type*}

/-- `~/.ranx_tmp/ID.rh` and `~/.ranx/ID.rh`; `none`: the file does not exist -/
structure Disk (β : Type*) where
  tmp : Option (List β)
  dst : Option (List β)

/-- where a call of `download` ends early -/
inductive Stop where
  /-- it does not -/
  | never
  /-- before the temporary file is opened: during HEAD or before the answer to GET -/
  | beforeOpen
  /-- while copying the answer: so many bytes of it have reached the disk -/
  | written (n : Nat)
  /-- after the copy, before the renaming -/
  | beforeRename
  deriving DecidableEq

/-- the server and the process during one call -/
structure Attempt (β : Type*) where
  /-- the `content-length` of the answer to HEAD; `none`: no such header -/
  head : Option Nat
  /-- the bytes received as the body of the answer to GET, without a Range header (`none`) or with
  `Range: bytes=n-`; whatever the status code, which is not looked at, and even if the connection was
  closed too early without an error -/
  body : Option Nat → List β
  stop : Stop

/-- the temporary file after copying `received` into it (downloader.py:34-45): mode `"ab"` when resuming
at a position other than 0, otherwise `"wb"` -/
def write (tmp : Option (List β)) (resume : Nat) (received : List β) : List β :=
  if resume ≠ 0 then tmp.getD [] ++ received else received

/-- downloader.py:12-46 `downloader`: the temporary file afterwards, and whether the call returns.
`resume_byte_pos=None` is position 0: both are falsy. -/
def downloader (a : Attempt β) (tmp : Option (List β)) (resume : Nat) : Option (List β) × Bool :=
  let received := a.body (if resume ≠ 0 then some resume else none)
  match a.stop with
  | .beforeOpen => (tmp, false)
  | .written n => (some (write tmp resume (received.take n)), false)
  | _ => (some (write tmp resume received), true)

/-- downloader.py:49-69 `download_file`. A missing header counts as length 0. -/
def downloadFile (a : Attempt β) (tmp : Option (List β)) : Option (List β) × Bool :=
  match tmp with
  | some f =>
    if a.head.getD 0 ≠ f.length then downloader a tmp f.length
    else (tmp, a.stop ≠ .beforeOpen)
  | none => downloader a tmp 0

/-- io.py:45-54 `download` up to `load_lz4`: the disk afterwards and the bytes loaded, if it gets there -/
def download (a : Attempt β) (d : Disk β) : Disk β × Option (List β) :=
  match d.dst with
  | some f => (d, some f)
  | none =>
    match downloadFile a d.tmp with
    | (tmp, false) => (⟨tmp, none⟩, none)
    | (tmp, true) =>
      if a.stop = .beforeRename then (⟨tmp, none⟩, none)
      else (⟨none, tmp⟩, tmp)

/-- a history of calls -/
def downloads (as : List (Attempt β)) (d : Disk β) : Disk β :=
  as.foldl (fun d a => (download a d).1) d

end Ranx.Dl
