import Verif.Model.Parser
import Verif.Py.Number

/-
/repo/src/ics/contentline/parser.py once more, this time with line numbers and with what parse errors say
(container.py:45-71).  `Proofs/Located.lean` shows that forgetting them gives `Model/Parser.lean`.
-/
namespace Ics

/-- `ParseError.col` (/repo/src/ics/contentline/container.py:49): -1, a column, or a pair of columns. -/
inductive Col where
  | none
  | at (n : Nat)
  | range (a b : Nat)
deriving DecidableEq, Repr

/-- The messages of the `ParseError`s of the parser, by where they are made: /repo/src/ics/contentline/parser.py:43-46,
49-52 (`%s`, `%r` of the match and of the line are left out of the first), 91, 98, 132, 157, 167, 182, 206 and
container.py:103-109. -/
inductive Msg where
  | notSplit (nr col : Nat) (line : Str)
  | strayContinuation (nr : Nat) (line : Str)
  | expectedEnd (name value : Str)
  | missingEnd (name : Str)
  | noSeparator
  | paramWithoutValue
  | emptyValue
  | missingQuote
  | trailingContent
  | endsInEscape (string : Str)
  | invalidEscape (g : Char) (string : Str)
deriving DecidableEq, Repr

/-- `ParseError` (/repo/src/ics/contentline/container.py:45-51); `line_nr` is `none` for -1.  `state`, the repr of the
parser object, is left out here; `ParseErr.str` takes it as an argument. -/
structure ParseErr where
  msg : Msg
  nr : Option Nat := none
  col : Col := .none
  line : Option Str := none
deriving DecidableEq, Repr

/-- An exception of the parser: a `ParseError` (/repo/src/ics/contentline/container.py:45-51), or another one. -/
inductive LErr where
  | parse (e : ParseErr)
  | other (e : PyErr)
deriving DecidableEq, Repr

/-- `unescape_param` (/repo/src/ics/contentline/container.py:93-111) with the message of its error: `whole` is the whole
string, the recursion is on what is left of it. -/
def unescapeParamL (whole : Str) : Str → Except LErr Str
  | [] => .ok []
  | '^' :: c :: s =>
    if c = 'n' then (unescapeParamL whole s).map ('\n' :: ·)
    else if c = '^' then (unescapeParamL whole s).map ('^' :: ·)
    else if c = '\'' then (unescapeParamL whole s).map ('"' :: ·)
    else if c = '\n' then .error (.parse { msg := .endsInEscape whole })
    else .error (.parse { msg := .invalidEscape c whole })
  | ['^'] => .error (.parse { msg := .endsInEscape whole })
  | c :: s => (unescapeParamL whole s).map (c :: ·)

/-- The line that is parsed and its number: the fields `line` and `line_nr` of `ContentLineParser`
(/repo/src/ics/contentline/parser.py:115-116). -/
structure Src where
  line : Str
  nr : Option Nat
deriving DecidableEq, Repr

/-- `ContentLineParser.error` (/repo/src/ics/contentline/parser.py:125-126). -/
def Src.error (s : Src) (msg : Msg) (col : Col := .none) : LErr := .parse ⟨msg, s.nr, col, some s.line⟩

/-- `line[i]` (/repo/src/ics/contentline/parser.py:172, 199). -/
def Src.getChar (s : Src) (i : Nat) : Except LErr Char :=
  match s.line[i]? with
  | some c => .ok c
  | none => .error (.other .indexError)

/-- `next_delim` (/repo/src/ics/contentline/parser.py:128-132). -/
def Src.nextDelim (s : Src) (st : PSt) : Except LErr PSt :=
  match st.delims with
  | [] => .error (s.error .noSeparator)
  | d :: ds => .ok { st with delim := d, delims := ds }

/-- `while self.delim.start() < self.param_value_start: self.next_delim()`
(/repo/src/ics/contentline/parser.py:193-194). -/
def Src.skipDelims (s : Src) (delim : Nat) (delims : List Nat) (pvs : Nat) : Except LErr (Nat × List Nat) :=
  if delim < pvs then
    match delims with
    | [] => .error (s.error .noSeparator)
    | d :: ds => s.skipDelims d ds pvs
  else .ok (delim, delims)
termination_by delims.length

/-- `parse_quoted_param_val` (/repo/src/ics/contentline/parser.py:177-208). -/
def Src.parseQuoted (s : Src) (st : PSt) : Except LErr (Bool × PSt) :=
  let start := st.pvs + 1
  match indexFrom s.line '"' start with
  | none => .error (s.error .missingQuote (.at start))
  | some stop =>
    match unescapeParamL (slice s.line start stop) (slice s.line start stop) with
    | .error e => .error e
    | .ok v =>
      let pvs := stop + 1
      match s.skipDelims st.delim st.delims pvs with
      | .error e => .error e
      | .ok (delim, delims) =>
        let st' : PSt := { delims := delims, delim := delim, pvs := pvs, vals := st.vals ++ [⟨true, v⟩] }
        if delim = pvs then .ok (false, st')
        else
          match s.getChar pvs with
          | .error e => .error e
          | .ok c =>
            if c = ',' then .ok (true, { st' with pvs := pvs + 1 })
            else .error (s.error .trailingContent (.range pvs delim))

/-- `parse_raw_param_val` (/repo/src/ics/contentline/parser.py:210-222). -/
def Src.parseRaw (s : Src) (st : PSt) : Except LErr (Bool × PSt) :=
  match findBetween s.line ',' st.pvs st.delim with
  | none =>
    match unescapeParamL (slice s.line st.pvs st.delim) (slice s.line st.pvs st.delim) with
    | .error e => .error e
    | .ok v => .ok (false, { st with vals := st.vals ++ [⟨false, v⟩] })
  | some comma =>
    match unescapeParamL (slice s.line st.pvs comma) (slice s.line st.pvs comma) with
    | .error e => .error e
    | .ok v => .ok (true, { st with vals := st.vals ++ [⟨false, v⟩], pvs := comma + 1 })

/-- The loop over the values of a parameter (/repo/src/ics/contentline/parser.py:164-175), unrolled `fuel` times. -/
def Src.parseVals (s : Src) : Nat → PSt → Except LErr PSt
  | 0, _ => .error (.other .outOfFuel)
  | fuel + 1, st =>
    if st.delim ≤ st.pvs then .error (s.error .emptyValue (.range st.delim st.pvs))
    else
      match s.getChar st.pvs with
      | .error e => .error e
      | .ok c =>
        match (if c = '"' then s.parseQuoted st else s.parseRaw st) with
        | .error e => .error e
        | .ok (true, st') => s.parseVals fuel st'
        | .ok (false, st') => .ok st'

/-- `parse_param` (/repo/src/ics/contentline/parser.py:153-175). -/
def Src.parseParam (s : Src) (delim : Nat) (delims : List Nat) : Except LErr (Str × PSt) :=
  match indexFrom s.line '=' (delim + 1) with
  | none => .error (s.error .paramWithoutValue (.at (delim + 1)))
  | some eq =>
    match s.nextDelim { delims := delims, delim := delim, pvs := eq + 1, vals := [] } with
    | .error e => .error e
    | .ok st =>
      match s.parseVals (s.line.length + 1) st with
      | .error e => .error e
      | .ok st' => .ok (slice s.line (delim + 1) eq, st')

/-- The `while True` loop of `ContentLineParser.parse` (/repo/src/ics/contentline/parser.py:142-151), unrolled `fuel`
times. -/
def Src.parseLoop (s : Src) (name : Str) : Nat → Params → Nat → List Nat → Except LErr ContentLine
  | 0, _, _, _ => .error (.other .outOfFuel)
  | fuel + 1, params, delim, delims =>
    match s.getChar delim with
    | .error e => .error e
    | .ok c =>
      if c = ':' then .ok (mkContentLine name params (s.line.drop (delim + 1)))
      else if c = ';' then
        match s.parseParam delim delims with
        | .error e => .error e
        | .ok (pname, st) => s.parseLoop name fuel (dictSet params pname st.vals) st.delim st.delims
      else .error (.other .assertionError)

/-- A content line with its `line_nr` (/repo/src/ics/contentline/container.py:149), `none` for -1. -/
structure NrLine where
  nr : Option Nat
  line : ContentLine
deriving DecidableEq, Repr

/-- `ContentLineParser.parse` (/repo/src/ics/contentline/parser.py:134-151). -/
def Src.parse (s : Src) : Except LErr NrLine :=
  match delimsFrom 0 s.line with
  | [] => .error (s.error .noSeparator)
  | d :: ds => (s.parseLoop (s.line.take d) (s.line.length + 1) [] d ds).map (⟨s.nr, ·⟩)

/-- A generator of the parser run to its end (/repo/src/ics/contentline/parser.py:19-110): what it yields and the
exception that ends it, if any. -/
structure LGen (α : Type) where
  items : List α
  err : Option LErr
deriving DecidableEq, Repr

/-- `raise e` inside a generator (/repo/src/ics/contentline/parser.py:43-52). -/
def LGen.raise {α : Type} (e : LErr) : LGen α := ⟨[], some e⟩

/-- `yield a`, then continue with `g` (/repo/src/ics/contentline/parser.py:60, 74-76, 108-110). -/
def LGen.yield {α : Type} (a : α) (g : LGen α) : LGen α := ⟨a :: g.items, g.err⟩

/-- `unfold_lines` (/repo/src/ics/contentline/parser.py:34-64): `nr` is `line_nr`, the number of the next line; `cur` is
`current_nr` and `"".join(current_lines)`, `none` when `current_lines` is empty. -/
def unfoldNr (cur : Option (Nat × Str)) (nr : Nat) : List Str → LGen (Nat × Str)
  | [] => ⟨cur.toList, none⟩
  | l :: ls =>
    let line := rstripNl l
    if line.isEmpty then unfoldNr cur (nr + 1) ls
    else
      match line.findIdx? isNl with
      | some i => .raise (.parse { msg := .notSplit nr i line })
      | none =>
        match cur with
        | none =>
          if startsFold line then .raise (.parse { msg := .strayContinuation nr line })
          else unfoldNr (some (nr, line)) (nr + 1) ls
        | some (n, c) =>
          if startsFold line then unfoldNr (some (n, c ++ line.drop 1)) (nr + 1) ls
          else .yield (n, c) (unfoldNr (some (nr, line)) (nr + 1) ls)

/-- The loop of `lines_to_contentlines` (/repo/src/ics/contentline/parser.py:101-110) over what `unfold_lines` yields;
`err` is how that iterator ends. -/
def parseEachNr (err : Option LErr) : List (Nat × Str) → LGen NrLine
  | [] => ⟨[], err⟩
  | l :: ls =>
    match Src.parse ⟨l.2, some l.1⟩ with
    | .error e => .raise e
    | .ok cl => .yield cl (parseEachNr err ls)

/-- A content line or container (/repo/src/ics/contentline/container.py:132-149, 216-232) with line numbers. -/
inductive NrItem where
  | line (l : NrLine)
  | cont (name : Str) (items : List NrItem)

/-- `ContentLine.line_nr` and `Container.line_nr` (/repo/src/ics/contentline/container.py:149, 240-244); `none` for -1. -/
def NrItem.lineNr : NrItem → Option Nat
  | .line l => l.nr
  | .cont _ [] => none
  | .cont _ (i :: _) => i.lineNr

/-- The constructor `Container(name, items)` (/repo/src/ics/contentline/container.py:227-232). -/
def mkNrContainer (name : Str) (items : List NrItem) : Except LErr NrItem :=
  if upper name = [] then .error (.other .valueError) else .ok (.cont (upper name) items)

/-- `contentlines_to_container` (/repo/src/ics/contentline/parser.py:78-99), unrolled `fuel` times; see `toContainer`. -/
def toContainerNr (err : Option LErr) :
    Nat → Str → List NrItem → List NrLine → Except LErr (NrItem × List NrLine)
  | 0, _, _, _ => .error (.other .outOfFuel)
  | _ + 1, name, _, [] => .error (err.getD (.parse { msg := .missingEnd name }))
  | fuel + 1, name, acc, l :: ls =>
    if l.line.name = "BEGIN".toList then
      match toContainerNr err fuel l.line.value [] ls with
      | .error e => .error e
      | .ok (i, rest) => toContainerNr err fuel name (acc ++ [i]) rest
    else if l.line.name = "END".toList then
      if upper l.line.value ≠ upper name then .error (.parse { msg := .expectedEnd name l.line.value })
      else
        match mkNrContainer name acc with
        | .error e => .error e
        | .ok i => .ok (i, ls)
    else toContainerNr err fuel name (acc ++ [.line l]) ls

/-- The loop of `contentlines_to_containers` (/repo/src/ics/contentline/parser.py:66-76), unrolled `fuel` times. -/
def toContainersNr (err : Option LErr) : Nat → List NrLine → LGen NrItem
  | _, [] => ⟨[], err⟩
  | 0, _ :: _ => .raise (.other .outOfFuel)
  | fuel + 1, l :: ls =>
    if l.line.name = "BEGIN".toList then
      match toContainerNr err (ls.length + 1) l.line.value [] ls with
      | .error e => .raise e
      | .ok (i, rest) => .yield i (toContainersNr err fuel rest)
    else .yield (.line l) (toContainersNr err fuel ls)

/-- `lines_to_contentlines` of `unfold_lines` (/repo/src/ics/contentline/parser.py:25-27, 34-64, 101-110). -/
def nrLines (ls : List Str) : LGen NrLine :=
  let g := unfoldNr none 0 ls
  parseEachNr g.err g.items

/-- `lines_to_containers` (/repo/src/ics/contentline/parser.py:24-27). -/
def nrItems (ls : List Str) : LGen NrItem :=
  let g := nrLines ls
  toContainersNr g.err g.items.length g.items

/-- `string_to_containers` (/repo/src/ics/contentline/parser.py:19-22). -/
def nrItemsOf (txt : Str) : LGen NrItem := nrItems (stringToLines txt)

/-- The text of a message (/repo/src/ics/contentline/parser.py:43-46, 49-52, 91, 98, 132, 157, 167, 182, 206,
container.py:103-109).  `repr` is the repr of a text and `found` that of the match in the first message. -/
def Msg.text (repr : Str → Str) (found : Str) : Msg → Str
  | .notSplit nr col line =>
    "Line ".toList ++ natStr nr ++ ':' :: natStr col ++ " is not properly split and contains a newline ".toList ++ found ++
      ": ".toList ++ repr line
  | .strayContinuation nr line =>
    "Line ".toList ++ natStr nr ++ " is a continuation (starts with space) without a preceding line: ".toList ++ repr line
  | .expectedEnd name value => "Expected END:".toList ++ name ++ ", got END:".toList ++ value
  | .missingEnd name => "Missing END:".toList ++ name
  | .noSeparator => "does not contain name-value separator ':'".toList
  | .paramWithoutValue => "contains param without value".toList
  | .emptyValue => "contains param with an empty value".toList
  | .missingQuote => "contains param missing a closing quote".toList
  | .trailingContent => "contains param with content trailing after closing quote".toList
  | .endsInEscape string =>
    "parameter value '".toList ++ string ++ "' may not end with an escape sequence".toList
  | .invalidEscape g string =>
    "invalid escape sequence ^".toList ++ g :: " in parameter value '".toList ++ string ++ "'".toList

/-- `ParseError.__str__` (/repo/src/ics/contentline/container.py:53-71), of the text of the message, the line number
(`none` for -1), the columns, the line and the state. -/
def parseErrorStr (msg : Str) (nr : Option Nat) (col : Col) (line state : Option Str) : Str :=
  let strs := ["Line".toList]
  let strs := match nr with
    | none => strs
    | some n =>
      let strs := strs ++ [' ' :: natStr n]
      match col with
      | .none => strs
      | .at c => strs ++ [':' :: natStr c]
      | .range a b => strs ++ [':' :: natStr a ++ '-' :: natStr b]
  let strs := strs ++ [" ".toList, msg]
  let strs := match line with
    | none => strs
    | some [] => strs
    | some l => strs ++ [": ".toList, l]
  let strs := match state with
    | none => strs
    | some [] => strs
    | some s => strs ++ [" (".toList, s, ")".toList]
  strs.flatten

/-- `str(e)` (/repo/src/ics/contentline/container.py:53-71), with the state that the parser puts in whenever it puts in
the line (parser.py:125-126). -/
def ParseErr.str (repr : Str → Str) (found state : Str) (e : ParseErr) : Str :=
  parseErrorStr (e.msg.text repr found) e.nr e.col e.line (e.line.map fun _ => state)

end Ics
