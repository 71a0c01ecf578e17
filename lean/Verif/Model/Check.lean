import Verif.Model.Parser

/-
/repo/src/ics/contentline/parser.py: the check of parsed lines that `always_check` switches on.
-/
namespace Ics

/-- `Patterns.CONTROL` (/repo/src/ics/contentline/container.py:115). -/
def isControl (c : Char) : Bool := c.toNat ≤ 8 || (10 ≤ c.toNat && c.toNat ≤ 31) || c.toNat == 127

/-- The class of `Patterns.QSAFE_CHARS` (/repo/src/ics/contentline/container.py:119). -/
def isQsafe (c : Char) : Bool := !isControl c && c != '"'

/-- The class of `Patterns.SAFE_CHARS` (/repo/src/ics/contentline/container.py:120). -/
def isSafe (c : Char) : Bool := !isControl c && c != '"' && c != ',' && c != ':' && c != ';'

/-- The class of `Patterns.VALUE_CHARS` (/repo/src/ics/contentline/container.py:121). -/
def isValueChar (c : Char) : Bool := !isControl c

/-- The class of `Patterns.IDENTIFIER` (/repo/src/ics/contentline/container.py:122). -/
def isIdentChar (c : Char) : Bool :=
  ('a' ≤ c && c ≤ 'z') || ('A' ≤ c && c ≤ 'Z') || ('0' ≤ c && c ≤ '9') || c == '-'

/-- `re.match` of a class with `*`: the length of the match, which only has to start at the beginning
(/repo/src/ics/contentline/parser.py:230-233). -/
def matchStar (p : Char → Bool) (s : Str) : Option Nat := some (s.takeWhile p).length

/-- `re.match` of a class with `+` (/repo/src/ics/contentline/parser.py:225, 227). -/
def matchPlus (p : Char → Bool) (s : Str) : Option Nat :=
  if (s.takeWhile p).length = 0 then none else some (s.takeWhile p).length

/-- `assert m` for the result of `re.match`; a match object is true also if it is empty
(/repo/src/ics/contentline/parser.py:225-233). -/
def assertMatch (m : Option Nat) : Except PyErr Unit :=
  match m with
  | some _ => .ok ()
  | none => .error .assertionError

/-- The values of a parameter (/repo/src/ics/contentline/parser.py:228-232). -/
def checkVals : List PVal → Except PyErr Unit
  | [] => .ok ()
  | v :: vs => do
    if v.quoted then assertMatch (matchStar isQsafe v.text) else assertMatch (matchStar isSafe v.text)
    checkVals vs

/-- The parameters (/repo/src/ics/contentline/parser.py:226-232). -/
def checkParams : Params → Except PyErr Unit
  | [] => .ok ()
  | (k, vs) :: ps => do
    assertMatch (matchPlus isIdentChar k)
    checkVals vs
    checkParams ps

/-- `check_parsed_line` (/repo/src/ics/contentline/parser.py:224-233).  The last assertion is about the name,
as in the code. -/
def checkParsedLine (cl : ContentLine) : Except PyErr Unit := do
  assertMatch (matchPlus isIdentChar cl.name)
  checkParams cl.params
  assertMatch (matchStar isValueChar cl.name)

/-- `ContentLineParser.parse` with `always_check = True` (/repo/src/ics/contentline/parser.py:123, 134-151). -/
def parseLineChecked (line : Str) : Except PyErr ContentLine := do
  let cl ← parseLine line
  checkParsedLine cl
  .ok cl

end Ics
