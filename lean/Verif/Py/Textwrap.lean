import Verif.Py.Basic

/-
`textwrap.TextWrapper` (CPython 3.11 Lib/textwrap.py) with the options of
/repo/src/ics/contentline/container.py:19-29: `initial_indent=""`, `subsequent_indent=" "`,
`break_long_words=True`, `break_on_hyphens=True`, `expand_tabs=False`,
`replace_whitespace=False`, `fix_sentence_endings=False`, `drop_whitespace=False`.
-/
namespace Ics

/-- `chunk.rfind('-', 0, n)`, `none` for `-1` (Lib/textwrap.py:220, called through
/repo/src/ics/contentline/container.py:154, 161). -/
def rfindHyphen (chunk : Str) (n : Nat) : Option Nat :=
  ((chunk.take n).reverse.idxOf? '-').map fun i => (chunk.take n).length - 1 - i

/-- The position at which `_handle_long_word` cuts the chunk (Lib/textwrap.py:205-222, called
through /repo/src/ics/contentline/container.py:154, 161): `width` is the room for text on the
line, `curLen` what is already on it. -/
def longWordEnd (chunk : Str) (curLen width : Nat) : Nat :=
  let spaceLeft := if width < 1 then 1 else width - curLen
  if chunk.length > spaceLeft then
    match rfindHyphen chunk spaceLeft with
    | some h => if 0 < h ∧ (chunk.take h).any (· != '-') then h + 1 else spaceLeft
    | none => spaceLeft
  else spaceLeft

/-- The inner loop of `_wrap_chunks` (Lib/textwrap.py:287-297, called through
/repo/src/ics/contentline/container.py:154, 161): put chunks on the line while they fit.
Returns the text of the line and the remaining chunks. -/
def takeFitting (width : Nat) (cur : Str) : List Str → Str × List Str
  | [] => (cur, [])
  | c :: cs => if cur.length + c.length ≤ width then takeFitting width (cur ++ c) cs else (cur, c :: cs)

/-- One iteration of the outer loop of `_wrap_chunks` (Lib/textwrap.py:268-319, called through
/repo/src/ics/contentline/container.py:154, 161): the text of the next line without indent and
the remaining chunks.  The chunks are kept in order instead of reversed. -/
def wrapStep (width : Nat) (chunks : List Str) : Str × List Str :=
  match takeFitting width [] chunks with
  | (cur, []) => (cur, [])
  | (cur, c :: cs) =>
    if c.length > width then
      let e := longWordEnd c cur.length width
      (cur ++ c.take e, c.drop e :: cs)
    else (cur, c :: cs)

/-- The outer loop of `_wrap_chunks` (Lib/textwrap.py:266-339, called through
/repo/src/ics/contentline/container.py:154, 161).  `first` tells whether `lines` is still empty,
which decides the indent.  The unbounded `while` is unrolled `fuel` times. -/
def wrapLoop (W : Nat) : Nat → Bool → List Str → Except PyErr (List Str)
  | _, _, [] => .ok []
  | 0, _, _ :: _ => .error .outOfFuel
  | fuel + 1, first, c :: cs =>
    let indent : Str := if first then [] else [' ']
    let (cur, rest) := wrapStep (W - indent.length) (c :: cs)
    (wrapLoop W fuel false rest).map ((indent ++ cur) :: ·)

/-- `_wrap_chunks` (Lib/textwrap.py:238-339, called through
/repo/src/ics/contentline/container.py:154, 161).  The fuel is enough: see `wrapChunks_ne_fuel`. -/
def wrapChunks (W : Nat) (chunks : List Str) : Except PyErr (List Str) :=
  if W ≤ 0 then .error .valueError
  else wrapLoop W (chunks.flatten.length + chunks.length + 1) true chunks

/-- A possible result of `TextWrapper._split` (Lib/textwrap.py:157-177): the regular expression
`wordsep_re` has one capturing group around everything, so `re.split` returns pieces whose
concatenation is the text, and empty pieces are filtered out.  Where exactly the text is cut is
left open; all theorems hold for every such function.  Used by `DEFAULT_LINE_WRAP`
(/repo/src/ics/contentline/container.py:19-29). -/
structure Chunker where
  split : Str → List Str
  flatten_split : ∀ t, (split t).flatten = t
  ne_nil : ∀ t, ∀ c ∈ split t, c ≠ []

/-- `TextWrapper.wrap` (Lib/textwrap.py:347-359), as called in
/repo/src/ics/contentline/container.py:154, 161. -/
def wrap (ch : Chunker) (W : Nat) (text : Str) : Except PyErr (List Str) :=
  wrapChunks W (ch.split text)

end Ics
