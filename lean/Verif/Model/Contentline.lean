import Verif.Py.Textwrap

/-
/repo/src/ics/contentline/container.py: content lines, containers and how they are written.
-/
namespace Ics

/-- One character of `str.translate` in `escape_param`
(/repo/src/ics/contentline/container.py:88-90). -/
def escapeParamChar (c : Char) : Str :=
  if c = '"' then ['^', '\'']
  else if c = '^' then ['^', '^']
  else if c = '\n' then ['^', 'n']
  else if c = '\r' then []
  else [c]

/-- `escape_param` (/repo/src/ics/contentline/container.py:87-90). -/
def escapeParam (s : Str) : Str := s.flatMap escapeParamChar

/-- `unescape_param` (/repo/src/ics/contentline/container.py:93-111): `re.sub(r"\^(.?)", repl, s)`.
`.` does not match a line feed, so a caret before a line feed (or at the end) has an empty group. -/
def unescapeParam : Str → Except PyErr Str
  | [] => .ok []
  | '^' :: c :: s =>
    if c = 'n' then (unescapeParam s).map ('\n' :: ·)
    else if c = '^' then (unescapeParam s).map ('^' :: ·)
    else if c = '\'' then (unescapeParam s).map ('"' :: ·)
    else .error .parseError
  | ['^'] => .error .parseError
  | c :: s => (unescapeParam s).map (c :: ·)

/-- A parameter value: a plain `str` or a `QuotedParamValue`
(/repo/src/ics/contentline/container.py:74-84, types.py `ExtraParams`). -/
structure PVal where
  quoted : Bool
  text : Str
deriving DecidableEq, Repr

/-- `ExtraParams`: `Dict[str, List[Union[str, QuotedParamValue]]]`
(/repo/src/ics/types.py, /repo/src/ics/contentline/container.py:145). -/
abbrev Params := List (Str × List PVal)

/-- `ContentLine` (/repo/src/ics/contentline/container.py:132-149).  `line_nr` takes
no part in equality and is only used in messages; it is modelled in `Model/Located.lean`. -/
structure ContentLine where
  name : Str
  params : Params
  value : Str
deriving DecidableEq, Repr

/-- The constructor with its converter `str.upper` on the name
(/repo/src/ics/contentline/container.py:144). -/
def mkContentLine (name : Str) (params : Params) (value : Str) : ContentLine :=
  ⟨upper name, params, value⟩

/-- `re.search("[:;,]", pval)` (/repo/src/ics/contentline/container.py:180). -/
def needsQuote (s : Str) : Bool := s.any fun c => c == ':' || c == ';' || c == ','

/-- How one parameter value is written (/repo/src/ics/contentline/container.py:180-188). -/
def serPVal (v : PVal) : Str :=
  if v.quoted || needsQuote v.text then '"' :: escapeParam v.text ++ ['"']
  else escapeParam v.text

/-- The comma-separated values of one parameter
(/repo/src/ics/contentline/container.py:177-188). -/
def serPVals : List PVal → Str
  | [] => []
  | [v] => serPVal v
  | v :: vs => serPVal v ++ ',' :: serPVals vs

/-- The parameters (/repo/src/ics/contentline/container.py:173-188). -/
def serParams : Params → Str
  | [] => []
  | (n, vs) :: ps => ';' :: n ++ '=' :: serPVals vs ++ serParams ps

/-- `ContentLine._serialize_unwrapped` with `newline=False`
(/repo/src/ics/contentline/container.py:168-192). -/
def serUnwrapped (cl : ContentLine) : Str :=
  cl.name ++ serParams cl.params ++ ':' :: cl.value

/-- The line break written by the library (/repo/src/ics/contentline/container.py:154, 162). -/
def crlf : Str := ['\r', '\n']

/-- `DEFAULT_LINE_WRAP` with its current width, or `wrap=None`
(/repo/src/ics/contentline/container.py:19-42, 151). -/
inductive Wrap where
  | none
  | width (ch : Chunker) (W : Nat)

/-- The physical lines of a content line (/repo/src/ics/contentline/container.py:156-166): the
list of wrapped lines, or one line when `wrap` is `None`. -/
def physLines (w : Wrap) (t : Str) : Except PyErr (List Str) :=
  match w with
  | .none => .ok [t]
  | .width ch W => wrap ch W t

/-- `ContentLine.serialize_iter(newline, wrap)` joined
(/repo/src/ics/contentline/container.py:156-166): every physical line is followed by CRLF, the
last CRLF is popped unless `newline`.  Popping from an empty list is an `IndexError`. -/
def serLine (w : Wrap) (newline : Bool) (cl : ContentLine) : Except PyErr Str :=
  match physLines w (serUnwrapped cl) with
  | .error e => .error e
  | .ok lines =>
    if newline then .ok (lines.flatMap (· ++ crlf))
    else if lines = [] then .error .indexError
    else .ok ((lines.dropLast.flatMap (· ++ crlf)) ++ lines.getLast?.getD [])

/-- `"\r\n".join(lines)` (/repo/src/ics/contentline/container.py:154). -/
def joinCrlf : List Str → Str
  | [] => []
  | [l] => l
  | l :: ls => l ++ crlf ++ joinCrlf ls

/-- `ContentLine.serialize(newline, wrap)` (/repo/src/ics/contentline/container.py:151-154, 168-191): other than
`serialize_iter` it wraps the text together with the line break at its end. -/
def serText (w : Wrap) (newline : Bool) (cl : ContentLine) : Except PyErr Str :=
  (physLines w (serUnwrapped cl ++ if newline then crlf else [])).map joinCrlf

/-- `ContainerItem`: a content line or a container
(/repo/src/ics/types.py `ContainerItem`, /repo/src/ics/contentline/container.py:216-232). -/
inductive Item where
  | line (cl : ContentLine)
  | cont (name : Str) (items : List Item)
deriving Repr

mutual
/-- `line.serialize_iter(newline=True, wrap=wrap)` for an item of a container
(/repo/src/ics/contentline/container.py:156-166, 249-258). -/
def serItem (w : Wrap) : Item → Except PyErr Str
  | .line cl => serLine w true cl
  | .cont name items => do
    let body ← serItems w items
    .ok ("BEGIN:".toList ++ name ++ crlf ++ body ++ "END:".toList ++ name ++ crlf)
/-- The loop over the items of a container (/repo/src/ics/contentline/container.py:253-254). -/
def serItems (w : Wrap) : List Item → Except PyErr Str
  | [] => .ok []
  | i :: is => do
    let a ← serItem w i
    let b ← serItems w is
    .ok (a ++ b)
end

/-- `Container.serialize(newline, wrap)` (/repo/src/ics/contentline/container.py:246-258). -/
def serContainer (w : Wrap) (newline : Bool) (name : Str) (items : List Item) : Except PyErr Str := do
  let body ← serItems w items
  .ok ("BEGIN:".toList ++ name ++ crlf ++ body ++ "END:".toList ++ name ++ (if newline then crlf else []))

end Ics
