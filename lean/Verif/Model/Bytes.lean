import Mathlib.Data.Rat.Floor
import Mathlib.Data.Int.Log
import Mathlib.Data.Nat.Digits.Defs
import Verif.Model.PyStr
import Verif.Model.Special

/-!
# The bytes of files: UTF-8, CBOR, LZ4 (`ranx/io.py:57-77`, `run.py:205-208, 210, 275-279`, `ranxhub.py:49`)

`open(path, "w")` / `open(path)` write and read text as UTF-8, `save_lz4` writes `cbor2.dumps(content)`, compressed.
These are library functions; the model follows RFC 3629 (UTF-8), RFC 8949 (CBOR), IEEE 754 and the documentation of
`cbor2`.  The LZ4 frame format is left abstract: a compressor and a decompressor that undoes it.

Simplifications: of CBOR, indefinite lengths, keys that are not text, tags other than big numbers, and simple values
other than `false`, `true`, `null` are rejected by the reader (`cbor2.dumps` writes none of them for the content of a
run); there is no negative zero.
-/

namespace Ranx.Byt
open Py (Str)
open Special (X)

/-- bytes are numbers below 256 -/
abbrev Bytes := List Nat

/-! ## UTF-8 (RFC 3629) -/

/-- the bytes of a character -/
def encodeChar (c : Char) : Bytes :=
  let n := c.toNat
  if n < 0x80 then [n]
  else if n < 0x800 then [0xC0 + n / 64, 0x80 + n % 64]
  else if n < 0x10000 then [0xE0 + n / 4096, 0x80 + n / 64 % 64, 0x80 + n % 64]
  else [0xF0 + n / 262144, 0x80 + n / 4096 % 64, 0x80 + n / 64 % 64, 0x80 + n % 64]

/-- `s.encode("utf-8")` -/
def utf8 (s : Str) : Bytes := s.flatMap encodeChar

/-- a continuation byte -/
def isCont (b : Nat) : Bool := decide (0x80 ≤ b) && decide (b < 0xC0)

/-- the character with code `n`, if there is one -/
def charOf (n : Nat) : Option Char := if n.isValidChar then some (Char.ofNat n) else none

/-- the first character; `none`: a UnicodeDecodeError -/
def readUtf8 : Bytes → Option (Char × Bytes)
  | [] => none
  | a :: t =>
    if a < 0x80 then (charOf a).map (fun c => (c, t))
    else if a < 0xC0 then none
    else if a < 0xE0 then
      match t with
      | b :: t =>
        let n := (a - 0xC0) * 64 + (b - 0x80)
        if isCont b && decide (0x80 ≤ n) then (charOf n).map (fun c => (c, t)) else none
      | _ => none
    else if a < 0xF0 then
      match t with
      | b :: d :: t =>
        let n := (a - 0xE0) * 4096 + (b - 0x80) * 64 + (d - 0x80)
        if isCont b && isCont d && decide (0x800 ≤ n) then (charOf n).map (fun c => (c, t)) else none
      | _ => none
    else if a < 0xF8 then
      match t with
      | b :: d :: e :: t =>
        let n := (a - 0xF0) * 262144 + (b - 0x80) * 4096 + (d - 0x80) * 64 + (e - 0x80)
        if isCont b && isCont d && isCont e && decide (0x10000 ≤ n) then (charOf n).map (fun c => (c, t)) else none
      | _ => none
    else none

/-- the loop of the decoder; the first argument bounds the number of characters -/
def ofUtf8N : Nat → Bytes → Option Str
  | _, [] => some []
  | 0, _ => none
  | n + 1, b =>
    match readUtf8 b with
    | none => none
    | some (c, t) => (ofUtf8N n t).map (fun s => c :: s)

/-- `b.decode("utf-8")`; `none`: a UnicodeDecodeError -/
def ofUtf8 (b : Bytes) : Option Str := ofUtf8N b.length b

/-! ## Numbers -/

/-- `k` bytes, the most significant first (`struct.pack(">B")`, `">H"`, `">I"`, `">Q"`) -/
def be : Nat → Nat → Bytes
  | 0, _ => []
  | k + 1, n => n / 256 ^ k % 256 :: be k n

/-- the number given by bytes, most significant first -/
def ofBe (b : Bytes) : Nat := b.foldl (fun a x => a * 256 + x) 0

/-- the bytes of a number without leading zeros (`value.to_bytes((value.bit_length() + 7) // 8, "big")`) -/
def natBytes (n : Nat) : Bytes := (Nat.digits 256 n).reverse

/-- value of an IEEE 754 number with `w` bits of exponent and `p` bits of fraction -/
def ofIeee (w p : Nat) (b : Nat) : X ℚ :=
  let neg := b / 2 ^ (w + p) % 2 = 1
  let e := b / 2 ^ p % 2 ^ w
  let m := b % 2 ^ p
  if e = 2 ^ w - 1 then (if m = 0 then (if neg then .ninf else .pinf) else .nan)
  else
    let v : ℚ := if e = 0 then (m : ℚ) * 2 ^ (2 - 2 ^ (w - 1) - p : ℤ)
      else ((2 ^ p + m : Nat) : ℚ) * 2 ^ ((e : ℤ) + 1 - 2 ^ (w - 1) - p)
    .fin (if neg then -v else v)

/-- the 64 bits of a binary64 number (`struct.pack(">d", x)`) -/
def doubleBits (x : ℚ) : Nat :=
  let s := if x < 0 then 2 ^ 63 else 0
  let e := Int.log 2 |x|
  if x = 0 then 0
  else if e < -1022 then s + ⌊|x| * 2 ^ 1074⌋₊
  else s + ((e + 1023).toNat * 2 ^ 52 + (⌊|x| / 2 ^ (e - 52)⌋₊ - 2 ^ 52))

/-! ## CBOR (RFC 8949) -/

/-- the values that occur in ranx's files -/
inductive Val where
  | int (z : Int)
  | float (x : X ℚ)
  | text (s : Str)
  | bool (b : Bool)
  | null
  | arr (l : List Val)
  | map (l : List (Str × Val))

/-- `encode_length(major, n)`: the shortest of the five forms -/
def head (major n : Nat) : Bytes :=
  if n < 24 then [32 * major + n]
  else if n < 256 then (32 * major + 24) :: be 1 n
  else if n < 65536 then (32 * major + 25) :: be 2 n
  else if n < 4294967296 then (32 * major + 26) :: be 4 n
  else (32 * major + 27) :: be 8 n

/-- `encode_int`: big numbers are tagged byte strings -/
def dumpInt (z : Int) : Bytes :=
  if 0 ≤ z then
    if z.toNat < 2 ^ 64 then head 0 z.toNat
    else 0xC2 :: (head 2 (natBytes z.toNat).length ++ natBytes z.toNat)
  else
    if (-1 - z).toNat < 2 ^ 64 then head 1 (-1 - z).toNat
    else 0xC3 :: (head 2 (natBytes (-1 - z).toNat).length ++ natBytes (-1 - z).toNat)

/-- `encode_float` -/
def dumpFloat : X ℚ → Bytes
  | .nan => [0xF9, 0x7E, 0x00]
  | .pinf => [0xF9, 0x7C, 0x00]
  | .ninf => [0xF9, 0xFC, 0x00]
  | .fin x => 0xFB :: be 8 (doubleBits x)

/-- `encode_string` -/
def dumpText (s : Str) : Bytes := head 3 (utf8 s).length ++ utf8 s

mutual
/-- `cbor2.dumps(v)` -/
def dumps : Val → Bytes
  | .int z => dumpInt z
  | .float x => dumpFloat x
  | .text s => dumpText s
  | .bool b => [if b then 0xF5 else 0xF4]
  | .null => [0xF6]
  | .arr l => head 4 l.length ++ dumpItems l
  | .map l => head 5 l.length ++ dumpMembers l
def dumpItems : List Val → Bytes
  | [] => []
  | v :: t => dumps v ++ dumpItems t
def dumpMembers : List (Str × Val) → Bytes
  | [] => []
  | (k, v) :: t => dumpText k ++ (dumps v ++ dumpMembers t)
end

/-- `k` bytes; `none`: a CBORDecodeEOF -/
def takeBytes (k : Nat) (b : Bytes) : Option (Bytes × Bytes) :=
  if b.length < k then none else some (b.take k, b.drop k)

/-- the argument of an initial byte with additional information `info` -/
def readArg (info : Nat) (b : Bytes) : Option (Nat × Bytes) :=
  if info < 24 then some (info, b)
  else if info < 28 then (takeBytes (2 ^ (info - 24)) b).map (fun p => (ofBe p.1, p.2))
  else none

/-- a text string -/
def readText : Bytes → Option (Str × Bytes)
  | [] => none
  | a :: t =>
    if a / 32 = 3 then
      match readArg (a % 32) t with
      | none => none
      | some (n, t) =>
        match takeBytes n t with
        | none => none
        | some (s, t) => (ofUtf8 s).map (fun s => (s, t))
    else none

/-- the content of a big number: a byte string -/
def readBlob : Bytes → Option (Nat × Bytes)
  | [] => none
  | a :: t =>
    if a / 32 = 2 then
      match readArg (a % 32) t with
      | none => none
      | some (n, t) => (takeBytes n t).map (fun p => (ofBe p.1, p.2))
    else none

/-- a simple value or a float, by additional information -/
def readSimple (info : Nat) (b : Bytes) : Option (Val × Bytes) :=
  if info = 20 then some (.bool false, b)
  else if info = 21 then some (.bool true, b)
  else if info = 22 then some (.null, b)
  else if info = 25 then (takeBytes 2 b).map (fun p => (.float (ofIeee 5 10 (ofBe p.1)), p.2))
  else if info = 26 then (takeBytes 4 b).map (fun p => (.float (ofIeee 8 23 (ofBe p.1)), p.2))
  else if info = 27 then (takeBytes 8 b).map (fun p => (.float (ofIeee 11 52 (ofBe p.1)), p.2))
  else none

mutual
/-- one value; the first argument bounds the number of nested calls -/
def readVal : Nat → Bytes → Option (Val × Bytes)
  | 0, _ => none
  | _, [] => none
  | f + 1, a :: t =>
    if a / 32 = 7 then readSimple (a % 32) t
    else if a / 32 = 3 then (readText (a :: t)).map (fun p => (.text p.1, p.2))
    else
      match readArg (a % 32) t with
      | none => none
      | some (n, t) =>
        if a / 32 = 0 then some (.int n, t)
        else if a / 32 = 1 then some (.int (-1 - (n : Int)), t)
        else if a / 32 = 4 then (readItems f n t).map (fun p => (.arr p.1, p.2))
        else if a / 32 = 5 then (readMembers f n t).map (fun p => (.map p.1, p.2))
        else if a / 32 = 6 then
          if n = 2 then (readBlob t).map (fun p => (.int p.1, p.2))
          else if n = 3 then (readBlob t).map (fun p => (.int (-1 - (p.1 : Int)), p.2))
          else none
        else none
/-- `n` values -/
def readItems : Nat → Nat → Bytes → Option (List Val × Bytes)
  | _, 0, b => some ([], b)
  | 0, _, _ => none
  | f + 1, n + 1, b =>
    match readVal f b with
    | none => none
    | some (v, b) => (readItems f n b).map (fun p => (v :: p.1, p.2))
/-- `n` keys with their values -/
def readMembers : Nat → Nat → Bytes → Option (List (Str × Val) × Bytes)
  | _, 0, b => some ([], b)
  | 0, _, _ => none
  | f + 1, n + 1, b =>
    match readText b with
    | none => none
    | some (k, b) =>
      match readVal f b with
      | none => none
      | some (v, b) => (readMembers f n b).map (fun p => ((k, v) :: p.1, p.2))
end

/-- `cbor2.loads(b)` (bytes after the value are ignored); `none`: a CBORDecodeError -/
def loads (b : Bytes) : Option Val := (readVal (2 * b.length + 2) b).map Prod.fst

end Ranx.Byt
