import Mathlib.Data.List.Lex
import Mathlib.Data.Char
import Verif.Model.Store
import Verif.Model.PyStr

/-!
# Files (`Run.save`, `Run.from_file`, `Qrels.save`, `Qrels.from_file`, `ranx/io.py`, `ranx/utils.py`)

Ids and names are strings (`List Char`), ordered by code points like Python strings.  The formats the
code base leaves to libraries (UTF-8 text, gzip, orjson, cbor2 + lz4, parquet) are a `Codec`: a type of
byte strings with encoders and decoders that round-trip.  The text formats written and parsed by ranx
itself are modelled character by character.  `str(x)` / `float(s)` of a Python float are a `FloatText`.
-/

namespace Ranx.Files
open Py

/-- strings are compared code point by code point -/
instance (priority := high) strOrder : LinearOrder Str :=
  { (inferInstance : LinearOrder (List Char)) with
    toDecidableEq := instDecidableEqList
    compare_eq_compareOfLessAndEq := by
      intro a b
      have h := LinearOrder.compare_eq_compareOfLessAndEq (α := List Char) a b
      refine h.trans ?_
      congr }

/-- newline translation of files opened in text mode: `\r\n` and `\r` are read as `\n` -/
def translate : Str → Str
  | [] => []
  | c :: t =>
    if c = '\r' then
      match t with
      | '\n' :: _ => translate t
      | _ => '\n' :: translate t
    else c :: translate t

/-- the lines of a text, without their `\n` -/
def lines : Str → List Str
  | [] => []
  | c :: t => if c = '\n' then [] :: lines t else consHead c (lines t)

/-- `for line in f` of a file opened in text mode (run.py:280, qrels.py:270) -/
def fileLines (s : Str) : List Str := lines (translate s)

/-- pieces between white space characters, possibly empty -/
def pieces : Str → List Str
  | [] => [[]]
  | c :: t => if isSpace c then [] :: pieces t else consHead c (pieces t)

/-- `line.split()` -/
def splitWs (s : Str) : List Str := (pieces s).filter (fun p => !p.isEmpty)

/-- how Python writes and reads floats: `float(str(x)) == x`, and the text has no white space -/
structure FloatText (α : Type*) where
  show' : α → Str
  /-- `none`: ValueError -/
  parse : Str → Option α
  parse_show : ∀ x, parse (show' x) = some x
  ne_nil : ∀ x, show' x ≠ []
  noSpace : ∀ x, ∀ c ∈ show' x, isSpace c = false

/-- `run[q_id][doc_id] = value` on a `defaultdict(dict)` -/
def setDefault {β : Type*} (d : Dict Str (Dict Str β)) (q doc : Str) (v : β) : Dict Str (Dict Str β) :=
  d.set q (((d.get? q).getD []).set doc v)

/-- run.py:280-284: the loop over the lines; `name` is the run's name so far. Unpacking a line that does
not have six fields raises ValueError, as does `float(rel)`. -/
def parseRun {α : Type*} (T : FloatText α) : List Str → Dict Str (Dict Str α) → Option Str →
    Except Err (Dict Str (Dict Str α) × Option Str)
  | [], d, name => .ok (d, name)
  | l :: ls, d, name =>
    match splitWs l with
    | [q, _, doc, _, rel, runName] =>
      match T.parse rel with
      | none => .error .valueError
      | some v => parseRun T ls (setDefault d q doc v) (some (name.getD runName))
    | _ => .error .valueError

/-- qrels.py:270-272 -/
def parseQrels : List Str → Dict Str (Dict Str Int) → Except Err (Dict Str (Dict Str Int))
  | [], d => .ok d
  | l :: ls, d =>
    match splitWs l with
    | [q, _, doc, rel] =>
      match pyInt rel with
      | none => .error .valueError
      | some v => parseQrels ls (setDefault d q doc v)
    | _ => .error .valueError

/-- run.py:216 the text of one line: `f"{q_id} Q0 {doc_id} {rank+1} {score} {self.name}"` -/
def runLine {α : Type*} (T : FloatText α) (name q doc : Str) (rank : Nat) (score : α) : Str :=
  q ++ " Q0 ".toList ++ doc ++ " ".toList ++ natStr (rank + 1) ++ " ".toList ++ T.show' score ++
    " ".toList ++ name

/-- qrels.py:212 `f"{q_id} 0 {doc_id} {score}"` -/
def qrelsLine (q doc : Str) (score : Int) : Str :=
  q ++ " 0 ".toList ++ doc ++ " ".toList ++ intStr score

/-- run.py:212-222, qrels.py:208-218: the nested loops; every line but the very last is followed by
`"\n"` (`n` queries, `i` the index of this one, `m` docs, `rank` the index of this one).
`self.run[q_id][doc_id]` is the value next to the key. -/
def writeText {β : Type*} (line : Str → Str → Nat → β → Str) (d : Dict Str (Dict Str β)) : Str :=
  d.zipIdx.flatMap (fun qi =>
    qi.1.2.zipIdx.flatMap (fun ej =>
      line qi.1.1 ej.1.1 ej.2 ej.1.2 ++
        (if qi.2 ≠ d.length - 1 ∨ ej.2 ≠ qi.1.2.length - 1 then ['\n'] else [])))

/-- `f"{self.name}"`: the name, or `None` -/
def nameText : Option Str → Str
  | some n => n
  | none => "None".toList

/-- the byte formats of the libraries -/
structure Codec (B β : Type*) where
  encodeText : Str → B
  /-- reading a file in text mode, before newline translation -/
  decodeText : B → Except Err Str
  /-- `gzip.open(path, "rt")`, before newline translation -/
  gunzip : B → Except Err Str
  dumpJson : Dict Str (Dict Str β) → B
  loadJson : B → Except Err (Dict Str (Dict Str β))
  dumpLz4 : Dict Str (Dict Str β) → B
  loadLz4 : B → Except Err (Dict Str (Dict Str β))
  dumpParquet : List (Str × Str × β) → B
  loadParquet : B → Except Err (List (Str × Str × β))
  text_text : ∀ s, decodeText (encodeText s) = .ok s
  /-- for dictionaries (keys are unique at both levels) -/
  json_json : ∀ d, d.NodupKeys → (∀ p ∈ d, p.2.NodupKeys) → loadJson (dumpJson d) = .ok d
  lz4_lz4 : ∀ d, d.NodupKeys → (∀ p ∈ d, p.2.NodupKeys) → loadLz4 (dumpLz4 d) = .ok d
  parquet_parquet : ∀ d, loadParquet (dumpParquet d) = .ok d
  /-- no UTF-8 text starts with the gzip magic number `1f 8b`: `gzip.BadGzipFile` (an OSError) -/
  gunzip_text : ∀ s, s ≠ [] → gunzip (encodeText s) = .error .osError

/-- `os.path.splitext(path)[1]` of a POSIX path: from the last dot of the last component on, if something
other than dots precedes it there -/
def splitext (path : Str) : Str :=
  let base := (splitChar '/' path).getLastD []
  let ext := (splitChar '.' base).getLastD []
  let stem := base.take (base.length - ext.length - 1)
  if '.' ∈ base ∧ stem.any (fun c => c ≠ '.') then '.' :: ext else []

/-- run.py:395-411, qrels.py:370-385 `get_file_kind` up to the check -/
def inferKind (path : Str) (kind : Option Str) : Str :=
  match kind with
  | some k => k
  | none =>
    let k := (splitext path).drop 1
    let k := if k = "txt".toList then "trec".toList else k
    if k = "parq".toList then "parquet".toList else k

/-- kinds of files -/
inductive Kind where
  | json | trec | lz4 | gz | parquet
  deriving DecidableEq, Repr

/-- run.py:395-411 `get_file_kind` -/
def runKind (path : Str) (kind : Option Str) : Except Err Kind :=
  let k := inferKind path kind
  if k = "json".toList then .ok .json
  else if k = "trec".toList then .ok .trec
  else if k = "lz4".toList then .ok .lz4
  else if k = "gz".toList then .ok .gz
  else if k = "parquet".toList then .ok .parquet
  else .error .assertionError

/-- qrels.py:370-385 `get_file_kind` -/
def qrelsKind (path : Str) (kind : Option Str) : Except Err Kind :=
  let k := inferKind path kind
  if k = "json".toList then .ok .json
  else if k = "trec".toList then .ok .trec
  else if k = "gz".toList then .ok .gz
  else if k = "parquet".toList then .ok .parquet
  else .error .assertionError

section
variable {B α : Type*} [LE α] [Neg α]

/-- a run with its name -/
structure RunFile (α : Type*) where
  name : Option Str
  store : Store Str Str α

/-- run.py:191-222 `Run.save`: the object after the call (sorted in place) and the bytes written;
`Err`: the kind is not accepted. `to_dict` copies the content (run.py:164-173). -/
def saveRun (C : Codec B α) (T : FloatText α) (S : ArgSort α) (r : RunFile α) (path : Str)
    (kind : Option Str) : RunFile α × Except Err B :=
  match runKind path kind with
  | .error e => (r, .error e)
  | .ok k =>
    let r' : RunFile α := { r with store := r.store.ensureSorted S }
    (r', .ok (match k with
      | .json => C.dumpJson r'.store.data
      | .lz4 => C.dumpLz4 r'.store.data
      | .parquet => C.dumpParquet r'.store.toDataframe
      | _ => C.encodeText (writeText (runLine T (nameText r'.name)) r'.store.data)))

/-- the body of the loop over a text file -/
def runOfText (T : FloatText α) (S : ArgSort α) (name : Option Str) (s : Str) : Except Err (RunFile α) :=
  match parseRun T (fileLines s) [] name with
  | .error e => .error e
  | .ok (d, name) =>
    match Store.ofDict S d with
    | .error e => .error e
    | .ok st => .ok ⟨name, st⟩

/-- run.py:225-255 `from_dict` with a name -/
def runOfDict (S : ArgSort α) (name : Option Str) (d : Dict Str (Dict Str α)) : Except Err (RunFile α) :=
  match Store.ofDict S d with
  | .error e => .error e
  | .ok st => .ok ⟨name, st⟩

/-- run.py:258-289 `Run.from_file`. Decoding errors of text are UnicodeDecodeErrors. -/
def loadRun (C : Codec B α) (T : FloatText α) (S : ArgSort α) (bytes : B) (path : Str)
    (kind : Option Str) (name : Option Str) : Except Err (RunFile α) :=
  match runKind path kind with
  | .error e => .error e
  | .ok k =>
    match k with
    | .json =>
      match C.loadJson bytes with
      | .error e => .error e
      | .ok d => runOfDict S name d
    | .lz4 =>
      match C.loadLz4 bytes with
      | .error e => .error e
      | .ok d => runOfDict S name d
    | k =>
      match (if k = .gz then C.gunzip bytes else C.decodeText bytes) with
      | .error e => .error e
      | .ok s => runOfText T S name s

/-- run.py:329-360 `Run.from_parquet` (no `pd_kwargs`; the columns have the types `save` writes) -/
def loadRunParquet (C : Codec B α) (S : ArgSort α) (bytes : B) (name : Option Str) :
    Except Err (RunFile α) :=
  match C.loadParquet bytes with
  | .error e => .error e
  | .ok df =>
    match Store.fromDataframe S df with
    | .error e => .error e
    | .ok st => .ok ⟨name, st⟩

end

section
variable {B : Type*}

/-- qrels.py:191-218 `Qrels.save` (unlike `Run.save` it does not sort) -/
def saveQrels (C : Codec B Int) (s : Store Str Str Int) (path : Str) (kind : Option Str) : Except Err B :=
  match qrelsKind path kind with
  | .error e => .error e
  | .ok .json => .ok (C.dumpJson s.data)
  | .ok .parquet => .ok (C.dumpParquet s.toDataframe)
  | .ok _ => .ok (C.encodeText (writeText (fun q d _ v => qrelsLine q d v) s.data))

/-- qrels.py:251-274 `Qrels.from_file` -/
def loadQrels (C : Codec B Int) (S : ArgSort Int) (bytes : B) (path : Str) (kind : Option Str) :
    Except Err (Store Str Str Int) :=
  match qrelsKind path kind with
  | .error e => .error e
  | .ok k =>
    match k with
    | .json =>
      match C.loadJson bytes with
      | .error e => .error e
      | .ok d => Store.ofDict S d
    | k =>
      match (if k = .gz then C.gunzip bytes else C.decodeText bytes) with
      | .error e => .error e
      | .ok s =>
        match parseQrels (fileLines s) [] with
        | .error e => .error e
        | .ok d => Store.ofDict S d

/-- qrels.py:313-341 `Qrels.from_parquet` (no `pd_kwargs`) -/
def loadQrelsParquet (C : Codec B Int) (S : ArgSort Int) (bytes : B) : Except Err (Store Str Str Int) :=
  match C.loadParquet bytes with
  | .error e => .error e
  | .ok df => Store.fromDataframe S df

end

/-- `c` ends a line for `str.splitlines` -/
def isLineBreak (c : Char) : Bool :=
  let n := c.toNat
  (10 ≤ n && n ≤ 13) || (0x1c ≤ n && n ≤ 0x1e) || n == 0x85 || n == 0x2028 || n == 0x2029

/-- `s.splitlines()` after newline translation (so there is no `\r` left) -/
def splitLines : Str → List Str
  | [] => []
  | c :: t => if isLineBreak c then [] :: splitLines t else consHead c (splitLines t)

/-- utils.py:47-54 `qrels_file_to_dict` on a text -/
def qrelsFileToDict (s : Str) : Except Err (Dict Str (Dict Str Int)) :=
  parseQrels (splitLines (translate s)) []

/-- utils.py:57-65 `run_file_to_dict` on a text (the run's name is dropped) -/
def runFileToDict {α : Type*} (T : FloatText α) (s : Str) : Except Err (Dict Str (Dict Str α)) :=
  (parseRun T (splitLines (translate s)) [] none).map (fun r => r.1)

end Ranx.Files
