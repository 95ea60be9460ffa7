import Verif.Model.FloatTextX
import Verif.Model.BytesRun

/-!
# Interrupted saves (`run.py:204-222`, `qrels.py:200-218`, `io.py:71-73`)

`save` opens the file itself for writing (`open(path, "w")`, `open(path, "wb")`), which empties it, and then writes the
bytes in order.  Simplified: the operating system keeps the bytes written so far, in order (no lost or reordered blocks).
-/

namespace Ranx.Byt
open Py (Str)
open Files

/-- what is at the path when the process stops during `save`: what was there before the file was opened (`none`: no
file), or an initial part of the bytes to write -/
inductive Left (old : Option Bytes) (new : Bytes) : Option Bytes → Prop
  | unopened : Left old new old
  | written (b rest : Bytes) : b ++ rest = new → Left old new (some b)

/-- qrels.py:202-204 the bytes `Qrels.save(path, kind="json")` writes -/
def qrelsJsonBytes (N : Jsn.NumText Int) (s : Store Str Str Int) : Bytes := utf8 (Jsn.qrelsText N s.data)

/-- run.py:201-206 the bytes `Run.save(path, kind="json")` writes -/
def runJsonBytes (N : Jsn.NumText ℚ) (S : ArgSort (Special.X ℚ)) (s : Store Str Str (Special.X ℚ)) : Bytes :=
  utf8 (Jsn.runText N (s.ensureSorted S).data)

/-- qrels.py:265-266, 274 `Qrels.from_file(path, kind="json")` from the bytes of the file; `orjson` raises a
JSONDecodeError (a ValueError) for bytes that are not UTF-8 -/
def qrelsOfJsonBytes (N : Jsn.NumText Int) (S : ArgSort Int) (b : Bytes) : Except Err (Store Str Str Int) :=
  match ofUtf8 b with
  | none => .error .valueError
  | some s => Jsn.qrelsOfJson N S s

/-- qrels.py:207-218 the bytes `Qrels.save(path, kind="trec")` writes -/
def qrelsTrecBytes (s : Store Str Str Int) : Bytes := utf8 (writeText (fun q d _ v => qrelsLine q d v) s.data)

/-- qrels.py:267-274 `Qrels.from_file(path, kind="trec")` from the bytes of the file (a UnicodeDecodeError is a
ValueError) -/
def qrelsOfTrec (S : ArgSort Int) (b : Bytes) : Except Err (Store Str Str Int) :=
  match ofUtf8 b with
  | none => .error .valueError
  | some s =>
    match parseQrels (fileLines s) [] with
    | .error e => .error e
    | .ok d => Store.ofDict S d

end Ranx.Byt
