import Verif.Model.Bytes
import Verif.Model.Json

/-!
# Runs as bytes (`ranx/io.py:57-77`, `run.py:205-208, 236-256, 273-276, 374-381`, `ranxhub.py:44-49`)

The LZ4 frame format is a `Frame`: a compressor and a decompressor that undoes it.  Everything else is bytes.
-/

namespace Ranx.Byt
open Py (Str)
open Special (X)
open Jsn (dictOf)

/-- `lz4.frame` -/
structure Frame where
  /-- the bytes in the file after `f.write(b)` on `lz4.frame.open(path, mode="wb")`, or `lz4.frame.compress(b, …)` -/
  compress : Bytes → Bytes
  /-- `f.read()` on `lz4.frame.open(path, mode="r")`, or `lz4.frame.decompress(b)`; `none`: a RuntimeError -/
  decompress : Bytes → Option Bytes
  undo : ∀ b, decompress (compress b) = some b

/-- io.py:57-61 `save_lz4`: the content is compressed, and once more by the file -/
def saveLz4 (Z : Frame) (v : Val) : Bytes := Z.compress (Z.compress (dumps v))

/-- io.py:64-68 `load_lz4` -/
def loadLz4 (Z : Frame) (b : Bytes) : Except Err Val :=
  match Z.decompress b with
  | none => .error .osError
  | some c =>
    match Z.decompress c with
    | none => .error .osError
    | some e =>
      match loads e with
      | none => .error .valueError
      | some v => .ok v

/-- `run.to_dict()` (run.py:164-173) as a value -/
def runVal (d : Dict Str (Dict Str (X ℚ))) : Val :=
  .map (d.map (fun p => (p.1, .map (p.2.map (fun e => (e.1, .float e.2))))))

/-- the entries of a map; anything else has no `.keys()` (an AttributeError, here a `typeError`) -/
def asDict {γ : Type*} (f : Val → Except Err γ) : Val → Except Err (Dict Str γ)
  | .map l => dictOf f l []
  | _ => .error .typeError

/-- an entry of `np.array(scores, dtype=float)` (run.py:244-246): integers are rounded, `None` becomes `nan`.
Simplified: strings, which NumPy converts if it can, are errors here, and so are integers above the largest float. -/
def scoreOfVal (rnd : ℚ → ℚ) : Val → Except Err (X ℚ)
  | .float x => .ok x
  | .int z => .ok (.fin (rnd z))
  | .bool b => .ok (.fin (if b then 1 else 0))
  | .null => .ok .nan
  | _ => .error .typeError

/-- run.py:236-256 `Run.from_dict` of a value -/
def runOfVal (rnd : ℚ → ℚ) (S : ArgSort (X ℚ)) (v : Val) : Except Err (Store Str Str (X ℚ)) :=
  match asDict (asDict (scoreOfVal rnd)) v with
  | .error e => .error e
  | .ok d => Store.ofDict S d

/-- run.py:275-276, 286 `Run.from_file(path, kind="lz4")` from the bytes of the file -/
def runOfLz4 (Z : Frame) (rnd : ℚ → ℚ) (S : ArgSort (X ℚ)) (b : Bytes) : Except Err (Store Str Str (X ℚ)) :=
  match loadLz4 Z b with
  | .error e => .error e
  | .ok v => runOfVal rnd S v

/-- ranxhub.py:44-49: the bytes of the archive with the run card `card` -/
def hubBytes (Z : Frame) (card : Val) (d : Dict Str (Dict Str (X ℚ))) : Bytes :=
  saveLz4 Z (.map [("metadata".toList, card), ("run".toList, runVal d)])

/-- `x[key]` of a Python value -/
def Val.item (v : Val) (key : Str) : Except Err Val :=
  match asDict Except.ok v with
  | .error e => .error e
  | .ok d =>
    match d.get? key with
    | none => .error .keyError
    | some x => .ok x

/-- run.py:374-381 `Run.from_ranxhub` after the download: the run, its name and its card -/
def runOfHub (Z : Frame) (rnd : ℚ → ℚ) (S : ArgSort (X ℚ)) (b : Bytes) :
    Except Err (Store Str Str (X ℚ) × Val × Val) := do
  let content ← loadLz4 Z b
  let r ← content.item "run".toList
  let st ← runOfVal rnd S r
  let card ← content.item "metadata".toList
  let sec ← card.item "run".toList
  let name ← sec.item "name".toList
  pure (st, name, card)

/-- io.py:71-77: the bytes of a JSON file are its text in UTF-8; `orjson` raises a JSONDecodeError (a ValueError) for
bytes that are not UTF-8 -/
def runOfJsonBytes (N : Jsn.NumText ℚ) (S : ArgSort (X ℚ)) (b : Bytes) : Except Err (Store Str Str (X ℚ)) :=
  match ofUtf8 b with
  | none => .error .valueError
  | some s => Jsn.runOfJson N S s

end Ranx.Byt
