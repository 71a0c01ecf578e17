/-
Python primitives used by the library: exception classes as values, strings as `List Char`,
the string searches the parser performs, and insertion-ordered dictionaries.
-/
namespace Ics

/-- Python `str`.  Lean's `Char` has no lone surrogates; everything else is as in Python.
Used for every `str` in /repo/src/ics. -/
abbrev Str := List Char

/-- The exception classes raised by the modelled code (/repo/src/ics/contentline/container.py:45-51
for `ParseError`, the others are builtins).  Messages, line and column numbers are not modelled.
`outOfFuel` is not a Python exception: it marks that a bounded unrolling of a Python `while`
loop or recursion was too short; the termination theorems prove that it never occurs. -/
inductive PyErr where
  | parseError
  | valueError
  | keyError
  | indexError
  | typeError
  | attributeError
  | assertionError
  | overflowError
  | notImplementedError
  | outOfFuel
deriving DecidableEq, Repr

/-- `line.index(c, start)` with the `ValueError` left to the caller
(/repo/src/ics/contentline/parser.py:155, 180). -/
def indexFrom (line : Str) (c : Char) (start : Nat) : Option Nat :=
  ((line.drop start).idxOf? c).map (· + start)

/-- `line.find(c, start, stop)`, `none` for `-1` (/repo/src/ics/contentline/parser.py:211). -/
def findBetween (line : Str) (c : Char) (start stop : Nat) : Option Nat :=
  (((line.take stop).drop start).idxOf? c).map (· + start)

/-- `line[a:b]` for `0 ≤ a`, `0 ≤ b` (/repo/src/ics/contentline/parser.py:139, 160, 187, 214, 219). -/
def slice (line : Str) (a b : Nat) : Str := (line.take b).drop a

/-- `line[i]` with `IndexError` as a value (/repo/src/ics/contentline/parser.py:172, 199). -/
def getChar (line : Str) (i : Nat) : Except PyErr Char :=
  match line[i]? with
  | some c => .ok c
  | none => .error .indexError

/-- `str.upper` (/repo/src/ics/contentline/container.py:144, 227; parser.py:90).
Simplified: only the ASCII letters are mapped, other characters are left alone. -/
def upper (s : Str) : Str := s.map Char.toUpper

/-- Check a property of all elements of a concrete list by evaluation (only used in examples). -/
theorem ball {α : Type} {p : α → Prop} [DecidablePred p] {l : List α}
    (h : l.all (fun c => decide (p c)) = true) : ∀ c ∈ l, p c := by simpa using h

deriving instance DecidableEq for Except

/-- `d[k] = v` on an insertion-ordered `dict` (/repo/src/ics/contentline/parser.py:161,
container.py:198): an existing key keeps its position. -/
def dictSet {κ ν : Type} [DecidableEq κ] (d : List (κ × ν)) (k : κ) (v : ν) : List (κ × ν) :=
  match d with
  | [] => [(k, v)]
  | (k', v') :: d => if k' = k then (k, v) :: d else (k', v') :: dictSet d k v

/-- `d.get(k)` on a `dict` (used throughout /repo/src/ics, e.g. valuetype/datetime.py:99). -/
def dictGet? {κ ν : Type} [DecidableEq κ] (d : List (κ × ν)) (k : κ) : Option ν :=
  match d with
  | [] => none
  | (k', v') :: d => if k' = k then some v' else dictGet? d k

/-- `d.pop(k, None)` on a `dict`: the dictionary afterwards (/repo/src/ics/valuetype/datetime.py,
`params.pop("TZID", None)`). -/
def dictErase {κ ν : Type} [DecidableEq κ] (d : List (κ × ν)) (k : κ) : List (κ × ν) :=
  match d with
  | [] => []
  | (k', v') :: d => if k' = k then d else (k', v') :: dictErase d k

/-- A Python generator run to its end: the values it yields, in order, and the exception that ends
it, if any.  All generators of the parser (/repo/src/ics/contentline/parser.py:19-110) are lazy: a
consumer sees the values yielded before the exception. -/
structure Gen (α : Type) where
  items : List α
  err : Option PyErr
deriving DecidableEq, Repr

/-- `raise e` inside a generator (/repo/src/ics/contentline/parser.py:43-52). -/
def Gen.raise {α : Type} (e : PyErr) : Gen α := ⟨[], some e⟩

/-- `yield a`, then continue with `g` (/repo/src/ics/contentline/parser.py:60, 74-76, 108-110). -/
def Gen.yield {α : Type} (a : α) (g : Gen α) : Gen α := ⟨a :: g.items, g.err⟩

/-- A generator that yields `l` and ends normally (used to state what `list(gen)` returns in
/repo/src/ics/contentline/__init__.py:18-23). -/
def Gen.done {α : Type} (l : List α) : Gen α := ⟨l, none⟩

end Ics
