import Verif.Py.Basic

/-
/repo/src/ics/valuetype/text.py
-/
namespace Ics

/-- One character of `str.translate` in `escape_text` (/repo/src/ics/valuetype/text.py:90-98). -/
def escapeTextChar (c : Char) : Str :=
  if c = '\\' then ['\\', '\\']
  else if c = ';' then ['\\', ';']
  else if c = ',' then ['\\', ',']
  else if c = '\n' then ['\\', 'n']
  else if c = '\r' then ['\\', 'r']
  else [c]

/-- `TextConverter.escape_text`, i.e. `serialize` (/repo/src/ics/valuetype/text.py:58-64, 88-98). -/
def escapeText (s : Str) : Str := s.flatMap escapeTextChar

/-- The character that an escape sequence stands for, `ValueError` if there is none
(/repo/src/ics/valuetype/text.py:108-121). -/
def unescapeChar (c : Char) : Except PyErr Char :=
  if c = ';' then .ok ';'
  else if c = ',' then .ok ','
  else if c = 'n' ∨ c = 'N' then .ok '\n'
  else if c = 'r' ∨ c = 'R' then .ok '\r'
  else if c = '\\' then .ok '\\'
  else .error .valueError

/-- `TextConverter.unescape_text`, i.e. `parse` (/repo/src/ics/valuetype/text.py:50-56, 100-125).
A backslash at the end makes `next_after_str_escape` raise `ValueError`
(/repo/src/ics/utils.py:145-151). -/
def unescapeText : Str → Except PyErr Str
  | [] => .ok []
  | c1 :: s =>
    if c1 = '\\' then
      match s with
      | [] => .error .valueError
      | c2 :: s =>
        match unescapeChar c2 with
        | .error e => .error e
        | .ok c => (unescapeText s).map (c :: ·)
    else if c1 = ';' ∨ c1 = ',' ∨ c1 = '\n' ∨ c1 = '\r' then .error .valueError
    else (unescapeText s).map (c1 :: ·)

/-- `values.split(",")` (/repo/src/ics/valuetype/text.py:67, valuetype/base.py `split_value_list`). -/
def splitComma : Str → List Str
  | [] => [[]]
  | c :: s =>
    if c = ',' then [] :: splitComma s
    else
      match splitComma s with
      | [] => [[c]]
      | g :: gs => (c :: g) :: gs

/-- `",".join(values)` (/repo/src/ics/valuetype/text.py:78-86, valuetype/base.py `join_value_list`).
Warnings are not modelled. -/
def joinComma : List Str → Str
  | [] => []
  | [v] => v
  | v :: vs => v ++ ',' :: joinComma vs

/-- The reversed text without a final line feed: where `$` may match
(/repo/src/ics/valuetype/text.py:70). -/
def dropLf : Str → Str
  | '\n' :: r => r
  | r => r

/-- Is there an odd number of trailing backslashes, according to `re.search(r"\\+$", val)`; `$` also
matches before a final line feed (/repo/src/ics/valuetype/text.py:70-71). -/
def trailOdd (val : Str) : Bool :=
  ((dropLf val.reverse).takeWhile (· == '\\')).length % 2 == 1

/-- The loops of `TextConverter.split_value_list` (/repo/src/ics/valuetype/text.py:66-76): `val` is the
current segment, the list holds the segments the iterator has not delivered yet. -/
def splitTextFrom (val : Str) : List Str → Gen Str
  | [] => if trailOdd val then .raise .valueError else .yield val (.done [])
  | g :: gs => if trailOdd val then splitTextFrom (val ++ ',' :: g) gs else .yield val (splitTextFrom g gs)

/-- `TextConverter.split_value_list` (/repo/src/ics/valuetype/text.py:66-76). -/
def splitTextList (values : Str) : Gen Str :=
  match splitComma values with
  | [] => .done []
  | g :: gs => splitTextFrom g gs

end Ics
