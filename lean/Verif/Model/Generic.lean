import Verif.Py.Number

/-
`BinaryConverter`, `BooleanConverter`, `IntegerConverter` (/repo/src/ics/valuetype/generic.py).
-/
namespace Ics

/-- `BooleanConverter.parse` (/repo/src/ics/valuetype/generic.py:57-78). -/
def boolParse (value : Str) : Except PyErr Bool :=
  if value = "TRUE".toList then .ok true
  else if value = "FALSE".toList then .ok false
  else
    let value := upper value
    if value = "TRUE".toList then .ok true
    else if value = "FALSE".toList then .ok false
    else if value ∈ ["T", "Y", "YES", "ON", "1"].map String.toList then .ok true
    else if value ∈ ["F", "N", "NO", "OFF", "0"].map String.toList then .ok false
    else .error .valueError

/-- `BooleanConverter.serialize` of a `bool` (/repo/src/ics/valuetype/generic.py:80-91). -/
def boolSerialize (b : Bool) : Str := if b then "TRUE".toList else "FALSE".toList

/-- C's `isspace`, which `int()` strips (/repo/src/ics/valuetype/generic.py:112). -/
def isCSpace (c : Char) : Bool := c = ' ' || c = '\t' || c = '\n' || c = '\x0b' || c = '\x0c' || c = '\r'

/-- Underscores only between digits (part of `int()`, /repo/src/ics/valuetype/generic.py:112). -/
def underscoresOk : Str → Bool
  | [] => true
  | [c] => isDigit c
  | c :: d :: s => (isDigit c && (isDigit d || d = '_') || (c = '_' && isDigit d)) && underscoresOk (d :: s)

/-- The digits of an `int()` literal, possibly with underscores
(/repo/src/ics/valuetype/generic.py:112). -/
def intBody (s : Str) : Except PyErr Int :=
  match s with
  | [] => .error .valueError
  | c :: _ => if isDigit c && underscoresOk s then intOfDigits (s.filter (· ≠ '_')) else .error .valueError

/-- `int(s)` for an ASCII string, base 10 (`IntegerConverter.parse`,
/repo/src/ics/valuetype/generic.py:106-112). -/
def intParse (s : Str) : Except PyErr Int :=
  let s := ((s.dropWhile isCSpace).reverse.dropWhile isCSpace).reverse
  match s with
  | '-' :: s =>
    match intBody s with
    | .ok n => .ok (-n)
    | .error e => .error e
  | '+' :: s => intBody s
  | s => intBody s

/-- `str(n)` (`IntegerConverter.serialize`, /repo/src/ics/valuetype/generic.py:114-120): CPython
refuses numbers with more than 4300 digits. -/
def intSerialize (n : Int) : Except PyErr Str :=
  let s := natStr n.natAbs
  if maxStrDigits < s.length then .error .valueError
  else .ok (if n < 0 then '-' :: s else s)

/-- The base 64 alphabet (`base64.b64encode`, /repo/src/ics/valuetype/generic.py:41). -/
def b64Char (n : Nat) : Char :=
  if n < 26 then Char.ofNat (65 + n)
  else if n < 52 then Char.ofNat (97 + (n - 26))
  else if n < 62 then Char.ofNat (48 + (n - 52))
  else if n = 62 then '+'
  else '/'

/-- `base64.b64encode` (`BinaryConverter.serialize`, /repo/src/ics/valuetype/generic.py:35-41).
A byte is a number below 256. -/
def b64encode : List (Fin 256) → Str
  | [] => []
  | [a] => [b64Char (a.val / 4), b64Char (a.val % 4 * 16), '=', '=']
  | [a, b] =>
    [b64Char (a.val / 4), b64Char (a.val % 4 * 16 + b.val / 16), b64Char (b.val % 16 * 4), '=']
  | a :: b :: c :: l =>
    b64Char (a.val / 4) :: b64Char (a.val % 4 * 16 + b.val / 16) ::
      b64Char (b.val % 16 * 4 + c.val / 64) :: b64Char (c.val % 64) :: b64encode l

/-- `table_a2b_base64` of CPython's binascii.c: the value of a character of the alphabet (used by
`base64.b64decode`, /repo/src/ics/valuetype/generic.py:33). -/
def b64Val (c : Char) : Option Nat :=
  if 'A' ≤ c ∧ c ≤ 'Z' then some (c.toNat - 65)
  else if 'a' ≤ c ∧ c ≤ 'z' then some (c.toNat - 97 + 26)
  else if '0' ≤ c ∧ c ≤ '9' then some (c.toNat - 48 + 52)
  else if c = '+' then some 62
  else if c = '/' then some 63
  else none

/-- The loop of `binascii.a2b_base64` in its lenient mode (used by `base64.b64decode`,
/repo/src/ics/valuetype/generic.py:33): `quad` characters of the current group have been read, `left`
holds their left-over bits, `pads` counts padding characters; characters outside of the alphabet are
skipped.  `binascii.Error` is a `ValueError`. -/
def b64Loop (quad left pads : Nat) (s : Str) : Except PyErr (List (Fin 256)) :=
  match s with
  | [] => if quad = 0 then .ok [] else .error .valueError
  | c :: s =>
    if c = '=' then
      if 2 ≤ quad ∧ 4 ≤ quad + (pads + 1) then .ok []
      else b64Loop quad left (if 2 ≤ quad then pads + 1 else pads) s
    else
      match b64Val c with
      | none => b64Loop quad left pads s
      | some v =>
        match quad with
        | 0 => b64Loop 1 v 0 s
        | 1 => (b64Loop 2 (v % 16) 0 s).map (Fin.ofNat 256 (left * 4 + v / 16) :: ·)
        | 2 => (b64Loop 3 (v % 4) 0 s).map (Fin.ofNat 256 (left * 16 + v / 4) :: ·)
        | _ => (b64Loop 0 0 0 s).map (Fin.ofNat 256 (left * 64 + v) :: ·)

/-- `base64.b64decode` (`BinaryConverter.parse`, /repo/src/ics/valuetype/generic.py:27-33): a `str`
must be ASCII. -/
def b64decode (s : Str) : Except PyErr (List (Fin 256)) :=
  if s.all (fun c => c.toNat < 128) then b64Loop 0 0 0 s else .error .valueError

end Ics
