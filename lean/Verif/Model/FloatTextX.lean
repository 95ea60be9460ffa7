import Verif.Model.FloatText
import Verif.Model.IO
import Verif.Model.Bytes

/-!
# Scores in TREC files, infinities and NaN included (`run.py:212-222, 277-284`)

`float(text)` and `f"{x}"` of any float64, after the documentation of Python's `float` (the text may contain `_` between
digits; `inf`, `infinity` and `nan` in any case; numbers too large are infinite).  Simplified: decimal digits of other
scripts, which Python accepts, are rejected here; there is no negative zero.
-/

namespace Ranx.FText
open Py Files Byt
open Special (X)

/-- the text without `_`, if every `_` is between two digits; the first argument: is the character before a digit -/
def unscore : Bool → Str → Option Str
  | _, [] => some []
  | prev, c :: t =>
    if c = '_' then
      match t with
      | [] => none
      | d :: _ => if prev && d.isDigit then unscore false t else none
    else (unscore c.isDigit t).map (fun u => c :: u)

/-- the nearest float64, infinite if it is `2 ^ 1024` or more -/
def toFloatX (x : ℚ) : X ℚ :=
  if |rd x| < 2 ^ 1024 then .fin (rd x) else if x < 0 then .ninf else .pinf

/-- `inf`, `infinity`, `nan` -/
def special (s : Str) : Option (X ℚ) :=
  let w := (signOf s).2.map Char.toLower
  if w = "inf".toList ∨ w = "infinity".toList then some (if (signOf s).1 = some '-' then .ninf else .pinf)
  else if w = "nan".toList then some .nan
  else none

/-- `float(text)` (run.py:282); `none` is the ValueError -/
def pyFloatX (s : Str) : Option (X ℚ) :=
  match unscore false (strip s) with
  | none => none
  | some u =>
    match split u with
    | none => special u
    | some p => if p.pyOk then some (toFloatX p.value) else none

/-- `f"{x}"` (run.py:216) -/
def reprX : X ℚ → Str
  | .fin x => floatStr .python x
  | .pinf => "inf".toList
  | .ninf => "-inf".toList
  | .nan => "nan".toList

/-- run.py:212-222 the bytes `Run.save(path, kind="trec")` writes, with `T` for the text of scores -/
def trecBytes (T : FloatText (X ℚ)) (S : ArgSort (X ℚ)) (r : RunFile (X ℚ)) : Bytes :=
  utf8 (writeText (runLine T (nameText r.name)) (r.store.ensureSorted S).data)

/-- run.py:277-288 `Run.from_file(path, kind="trec", name=given)` from the bytes of the file (a UnicodeDecodeError is a
ValueError) -/
def runOfTrec (T : FloatText (X ℚ)) (S : ArgSort (X ℚ)) (given : Option Str) (b : Bytes) : Except Err (RunFile (X ℚ)) :=
  match ofUtf8 b with
  | none => .error .valueError
  | some s => runOfText T S given s

end Ranx.FText
