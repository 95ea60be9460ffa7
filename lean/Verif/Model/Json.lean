import Verif.Model.IO
import Verif.Model.Special
import Verif.Model.Report

/-!
# JSON files (`ranx/io.py:71-77`, `ranx/data_structures/report.py:340-352`, `qrels.py:202-204, 265-266`)

The text level of `orjson.dumps(x, option=orjson.OPT_INDENT_2)`, `json.dumps(x, indent=4)` and of the readers
`orjson.loads` and `json.loads`.  These are library functions; the model follows their documentation (RFC 8259).
Numbers are written and read by a `NumText`, the only thing about numbers used here.  The UTF-8 bytes of the text are
left to `Codec.encodeText`.
-/

namespace Ranx.Jsn
open Py (Str)

/-- a JSON value with numbers from `ν`; `nan` is what Python's `json` writes for a NaN, which JSON does not have -/
inductive Json (ν : Type*) where
  | null
  | bool (b : Bool)
  | num (x : ν)
  | nan
  | str (s : Str)
  | arr (l : List (Json ν))
  | obj (l : List (Str × Json ν))

/-- the characters numbers are written with -/
def numChar (c : Char) : Bool := c.isDigit || c == '-' || c == '+' || c == '.' || c == 'e' || c == 'E'

/-- how numbers are written and read: reading gives back the number written -/
structure NumText (ν : Type*) where
  write : ν → Str
  read : Str → Option ν
  read_write : ∀ x, read (write x) = some x
  read_nil : read [] = none
  chars : ∀ x, ∀ c ∈ write x, numChar c = true

/-! ## Writing -/

/-- four hexadecimal digits -/
def hex4 (n : Nat) : Str :=
  [Nat.digitChar (n / 4096 % 16), Nat.digitChar (n / 256 % 16), Nat.digitChar (n / 16 % 16), Nat.digitChar (n % 16)]

/-- `\uXXXX`, two of them for characters beyond U+FFFF (json/encoder.py `py_encode_basestring_ascii`) -/
def uEscape (n : Nat) : Str :=
  if n < 0x10000 then '\\' :: 'u' :: hex4 n
  else '\\' :: 'u' :: hex4 (0xD800 + (n - 0x10000) / 0x400) ++ '\\' :: 'u' :: hex4 (0xDC00 + (n - 0x10000) % 0x400)

/-- one character of a string; `ascii`: `json.dumps` (`ensure_ascii`), otherwise `orjson.dumps` -/
def escape (ascii : Bool) (c : Char) : Str :=
  if c = '"' then ['\\', '"']
  else if c = '\\' then ['\\', '\\']
  else if c = '\n' then ['\\', 'n']
  else if c = '\r' then ['\\', 'r']
  else if c = '\t' then ['\\', 't']
  else if c.toNat = 8 then ['\\', 'b']
  else if c.toNat = 12 then ['\\', 'f']
  else if c.toNat < 32 ∨ (ascii = true ∧ 127 ≤ c.toNat) then uEscape c.toNat
  else [c]

/-- a string with its quotes -/
def quote (ascii : Bool) (s : Str) : Str := '"' :: s.flatMap (escape ascii) ++ ['"']

/-- a new line and its indentation -/
def newline (indent lvl : Nat) : Str := '\n' :: List.replicate (indent * lvl) ' '

section
variable {ν : Type*}

mutual
/-- `orjson.dumps(v, option=orjson.OPT_INDENT_2)` (`ascii = false`, `indent = 2`) and `json.dumps(v, indent=4)`
(`ascii = true`, `indent = 4`) at nesting depth `lvl` -/
def dumps (N : NumText ν) (ascii : Bool) (indent : Nat) : Nat → Json ν → Str
  | _, .null => "null".toList
  | _, .bool true => "true".toList
  | _, .bool false => "false".toList
  | _, .num x => N.write x
  | _, .nan => "NaN".toList
  | _, .str s => quote ascii s
  | _, .arr [] => ['[', ']']
  | lvl, .arr (v :: vs) => '[' :: newline indent (lvl + 1) ++ dumps N ascii indent (lvl + 1) v ++
      dumpItems N ascii indent (lvl + 1) vs ++ newline indent lvl ++ [']']
  | _, .obj [] => ['{', '}']
  | lvl, .obj ((k, v) :: ms) => '{' :: newline indent (lvl + 1) ++ quote ascii k ++ [':', ' '] ++
      dumps N ascii indent (lvl + 1) v ++ dumpMembers N ascii indent (lvl + 1) ms ++ newline indent lvl ++ ['}']
/-- the elements after the first -/
def dumpItems (N : NumText ν) (ascii : Bool) (indent : Nat) : Nat → List (Json ν) → Str
  | _, [] => []
  | lvl, v :: vs => ',' :: newline indent lvl ++ dumps N ascii indent lvl v ++ dumpItems N ascii indent lvl vs
/-- the members after the first -/
def dumpMembers (N : NumText ν) (ascii : Bool) (indent : Nat) : Nat → List (Str × Json ν) → Str
  | _, [] => []
  | lvl, (k, v) :: ms => ',' :: newline indent lvl ++ quote ascii k ++ [':', ' '] ++ dumps N ascii indent lvl v ++
      dumpMembers N ascii indent lvl ms
end

/-! ## Reading -/

/-- JSON white space -/
def isWs (c : Char) : Bool := c == ' ' || c == '\n' || c == '\r' || c == '\t'

/-- skip white space -/
def skip (s : Str) : Str := s.dropWhile isWs

/-- the value of a hexadecimal digit -/
def hexVal (c : Char) : Option Nat :=
  if c.isDigit then some (c.toNat - 48)
  else if 97 ≤ c.toNat ∧ c.toNat ≤ 102 then some (c.toNat - 87)
  else if 65 ≤ c.toNat ∧ c.toNat ≤ 70 then some (c.toNat - 55)
  else none

/-- four hexadecimal digits -/
def readHex : Str → Option (Nat × Str)
  | a :: b :: c :: d :: t =>
    match hexVal a, hexVal b, hexVal c, hexVal d with
    | some a, some b, some c, some d => some (((a * 16 + b) * 16 + c) * 16 + d, t)
    | _, _, _, _ => none
  | _ => none

/-- the character of a one-letter escape -/
def simpleEscape (e : Char) : Option Char :=
  if e = '"' ∨ e = '\\' ∨ e = '/' then some e
  else if e = 'n' then some '\n'
  else if e = 'r' then some '\r'
  else if e = 't' then some '\t'
  else if e = 'b' then some (Char.ofNat 8)
  else if e = 'f' then some (Char.ofNat 12)
  else none

/-- after `\u`: a character, written as one escape or as a surrogate pair (unpaired surrogates are rejected, as
`orjson.loads` does) -/
def readU (s : Str) : Option (Char × Str) :=
  match readHex s with
  | none => none
  | some (n, t) =>
    if n < 0xD800 ∨ 0xE000 ≤ n then some (Char.ofNat n, t)
    else if 0xDC00 ≤ n then none
    else match t with
      | x :: y :: t =>
        if x = '\\' ∧ y = 'u' then
          match readHex t with
          | none => none
          | some (m, t) =>
            if 0xDC00 ≤ m ∧ m < 0xE000 then some (Char.ofNat (0x10000 + (n - 0xD800) * 0x400 + (m - 0xDC00)), t)
            else none
        else none
      | _ => none

/-- one character of a string -/
def readChar : Str → Option (Char × Str)
  | [] => none
  | c :: t =>
    if c = '\\' then
      match t with
      | [] => none
      | e :: t => if e = 'u' then readU t else (simpleEscape e).map (fun c => (c, t))
    else if c.toNat < 32 then none
    else some (c, t)

/-- the characters up to the closing quote; the first argument bounds their number -/
def readChars : Nat → Str → Option (Str × Str)
  | 0, _ => none
  | _, [] => none
  | n + 1, c :: t =>
    if c = '"' then some ([], t)
    else match readChar (c :: t) with
      | none => none
      | some (x, t) => (readChars n t).map (fun r => (x :: r.1, r.2))

/-- a string at the start of the text -/
def readStr : Str → Option (Str × Str)
  | [] => none
  | c :: t => if c = '"' then readChars (t.length + 1) t else none

/-- `pre` at the start of the text -/
def keyword (pre : Str) (v : Json ν) (s : Str) : Option (Json ν × Str) :=
  if pre <+: s then some (v, s.drop pre.length) else none

mutual
/-- one value at the start of the text (no white space before it), and the rest.  The first argument bounds the depth
of the recursion.  `lax`: `NaN` is accepted (`json.loads`, not `orjson.loads`). -/
def readValue (N : NumText ν) (lax : Bool) : Nat → Str → Option (Json ν × Str)
  | 0, _ => none
  | _, [] => none
  | n + 1, c :: t =>
    if c = 'n' then keyword "null".toList .null (c :: t)
    else if c = 't' then keyword "true".toList (.bool true) (c :: t)
    else if c = 'f' then keyword "false".toList (.bool false) (c :: t)
    else if c = 'N' then if lax then keyword "NaN".toList .nan (c :: t) else none
    else if c = '"' then (readStr (c :: t)).map (fun r => (.str r.1, r.2))
    else if c = '[' then
      match skip t with
      | [] => none
      | d :: u =>
        if d = ']' then some (.arr [], u) else (readItems N lax n (d :: u)).map (fun r => (.arr r.1, r.2))
    else if c = '{' then
      match skip t with
      | [] => none
      | d :: u =>
        if d = '}' then some (.obj [], u) else (readMembers N lax n (d :: u)).map (fun r => (.obj r.1, r.2))
    else (N.read ((c :: t).takeWhile numChar)).map (fun x => (.num x, (c :: t).dropWhile numChar))
/-- the elements of an array, up to and including the closing bracket -/
def readItems (N : NumText ν) (lax : Bool) : Nat → Str → Option (List (Json ν) × Str)
  | 0, _ => none
  | n + 1, s =>
    match readValue N lax n (skip s) with
    | none => none
    | some (v, t) =>
      match skip t with
      | [] => none
      | d :: u =>
        if d = ']' then some ([v], u)
        else if d = ',' then (readItems N lax n u).map (fun r => (v :: r.1, r.2))
        else none
/-- the members of an object, up to and including the closing brace -/
def readMembers (N : NumText ν) (lax : Bool) : Nat → Str → Option (List (Str × Json ν) × Str)
  | 0, _ => none
  | n + 1, s =>
    match readStr (skip s) with
    | none => none
    | some (k, t) =>
      match skip t with
      | [] => none
      | c :: t =>
        if c = ':' then
          match readValue N lax n (skip t) with
          | none => none
          | some (v, t) =>
            match skip t with
            | [] => none
            | d :: u =>
              if d = '}' then some ([(k, v)], u)
              else if d = ',' then (readMembers N lax n u).map (fun r => ((k, v) :: r.1, r.2))
              else none
        else none
end

/-- `orjson.loads(text)` (`lax = false`), `json.loads(text)` (`lax = true`); `none`: `JSONDecodeError` -/
def loads (N : NumText ν) (lax : Bool) (s : Str) : Option (Json ν) :=
  match readValue N lax (s.length + 1) (skip s) with
  | some (v, t) => if skip t = [] then some v else none
  | none => none

end

/-! ## Runs, qrels and reports -/

open Special Rep

/-- a dictionary of dictionaries as JSON, in the order of the dictionaries -/
def nested {β ν : Type*} (f : β → Json ν) (d : Dict Str (Dict Str β)) : Json ν :=
  .obj (d.map (fun p => (p.1, .obj (p.2.map (fun e => (e.1, f e.2))))))

/-- a score as `orjson` writes it: infinities and NaN become `null` -/
def scoreJson {α : Type*} : X α → Json α
  | .fin x => .num x
  | _ => .null

/-- io.py:71-73 `save_json` of `run.to_dict()` (run.py:205-206) -/
def runText {α : Type*} (N : NumText α) (d : Dict Str (Dict Str (X α))) : Str :=
  dumps N false 2 0 (nested scoreJson d)

/-- qrels.py:202-204 -/
def qrelsText (N : NumText Int) (d : Dict Str (Dict Str Int)) : Str := dumps N false 2 0 (nested .num d)

/-- a Python dictionary built from the members in order (later duplicates replace the value) -/
def dictOf {β γ : Type*} (f : β → Except Err γ) : List (Str × β) → Dict Str γ → Except Err (Dict Str γ)
  | [], d => .ok d
  | (k, v) :: t, d =>
    match f v with
    | .error e => .error e
    | .ok x => dictOf f t (d.set k x)

/-- the entries of an object; anything else has no `.keys()` (an AttributeError, here a `typeError`) -/
def asDict {ν γ : Type*} (f : Json ν → Except Err γ) : Json ν → Except Err (Dict Str γ)
  | .obj l => dictOf f l []
  | _ => .error .typeError

/-- an entry of `np.array(scores, dtype=float)` (run.py:244-246): `None` becomes `nan`.  Simplified: booleans and
strings, which NumPy converts if it can, are errors here. -/
def scoreOfJson {α : Type*} : Json α → Except Err (X α)
  | .num x => .ok (.fin x)
  | .null => .ok .nan
  | _ => .error .typeError

/-- an entry of `np.array(scores, dtype=int)` (qrels.py:237-239) -/
def relOfJson : Json Int → Except Err Int
  | .num x => .ok x
  | _ => .error .typeError

/-- the dictionary in a JSON file (io.py:76-77 `load_json`): `none` is `orjson.JSONDecodeError`, a ValueError -/
def nestedOf {β ν : Type*} (N : NumText ν) (f : Json ν → Except Err β) (s : Str) :
    Except Err (Dict Str (Dict Str β)) :=
  match loads N false s with
  | none => .error .valueError
  | some v => asDict (asDict f) v

/-- run.py:273-274, 287 `Run.from_file(path, kind="json")` from the text of the file -/
def runOfJson {α : Type*} [LE (X α)] [Neg (X α)] (N : NumText α) (S : ArgSort (X α)) (s : Str) :
    Except Err (Store Str Str (X α)) :=
  match nestedOf N scoreOfJson s with
  | .error e => .error e
  | .ok d => Store.ofDict S d

/-- qrels.py:265-266, 274 `Qrels.from_file(path, kind="json")` from the text of the file -/
def qrelsOfJson (N : NumText Int) (S : ArgSort Int) (s : Str) : Except Err (Store Str Str Int) :=
  match nestedOf N relOfJson s with
  | .error e => .error e
  | .ok d => Store.ofDict S d

/-- a float of a report -/
def numJson {α : Type*} : Metrics.Num α → Json (Int ⊕ α)
  | .val x => .num (.inr x)
  | .nan => .nan

/-- `{"W": w, "T": t, "L": l}` (compare.py:114-118) -/
def wtlJson {α : Type*} (x : WTL) : Json (Int ⊕ α) :=
  .obj [(['W'], .num (.inl x.w)), (['T'], .num (.inl x.t)), (['L'], .num (.inl x.l))]

/-- the values of `to_dict` (report.py:296-319) as JSON -/
def entryJson {α : Type*} : Entry α → Json (Int ⊕ α)
  | .text s => .str s
  | .texts l => .arr (l.map .str)
  | .model scores comps wtl =>
    .obj [("scores".toList, .obj (scores.map (fun e => (e.1, numJson e.2)))),
      ("comparisons".toList, nested numJson comps), ("win_tie_loss".toList, nested wtlJson wtl)]

/-- a dictionary as JSON -/
def objOf {β ν : Type*} (f : β → Json ν) (d : Dict Str β) : Json ν := .obj (d.map (fun e => (e.1, f e.2)))

/-- report.py:340-348 `Report.save`: the text of the file -/
def reportText {α : Type*} [Field α] [LinearOrder α] (N : NumText (Int ⊕ α)) (r : Report α) : Except Err Str :=
  match r.toDict with
  | .error e => .error e
  | .ok d => .ok (dumps N true 4 0 (objOf entryJson d))

/-- report.py:350-352 `print_results`: what is printed -/
def resultsText {α : Type*} (N : NumText (Int ⊕ α)) (r : Report α) : Str :=
  dumps N true 4 0 (nested numJson r.results)

end Ranx.Jsn
