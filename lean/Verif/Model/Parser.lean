import Verif.Model.Contentline

/-
/repo/src/ics/contentline/parser.py: splitting, unfolding, the content line parser and nesting.
-/
namespace Ics

/-- Is the character matched by `[:;]` (/repo/src/ics/contentline/parser.py:137). -/
def isDelim (c : Char) : Bool := c == ':' || c == ';'

/-- Start positions of `re.finditer("[:;]", line)`, for the suffix of the line that starts at
position `i` (/repo/src/ics/contentline/parser.py:137). -/
def delimsFrom (i : Nat) : Str → List Nat
  | [] => []
  | c :: s => if isDelim c then i :: delimsFrom (i + 1) s else delimsFrom (i + 1) s

/-- The mutable fields of `ContentLineParser` that change while a parameter is parsed
(/repo/src/ics/contentline/parser.py:113-121): the remaining delimiter positions, the current
delimiter, `param_value_start` and `param_values`. -/
structure PSt where
  delims : List Nat
  delim : Nat
  pvs : Nat
  vals : List PVal
deriving Repr

/-- `next_delim` (/repo/src/ics/contentline/parser.py:128-132). -/
def nextDelim (st : PSt) : Except PyErr PSt :=
  match st.delims with
  | [] => .error .parseError
  | d :: ds => .ok { st with delim := d, delims := ds }

/-- `while self.delim.start() < self.param_value_start: self.next_delim()`
(/repo/src/ics/contentline/parser.py:193-194); recursion on the remaining delimiters. -/
def skipDelims (delim : Nat) (delims : List Nat) (pvs : Nat) : Except PyErr (Nat × List Nat) :=
  if delim < pvs then
    match delims with
    | [] => .error .parseError
    | d :: ds => skipDelims d ds pvs
  else .ok (delim, delims)
termination_by delims.length

/-- `parse_quoted_param_val` (/repo/src/ics/contentline/parser.py:177-208).  The returned `Bool` is
`has_further_param_value`. -/
def parseQuoted (line : Str) (st : PSt) : Except PyErr (Bool × PSt) :=
  let start := st.pvs + 1
  match indexFrom line '"' start with
  | none => .error .parseError
  | some stop =>
    match unescapeParam (slice line start stop) with
    | .error e => .error e
    | .ok v =>
      let pvs := stop + 1
      match skipDelims st.delim st.delims pvs with
      | .error e => .error e
      | .ok (delim, delims) =>
        let st' : PSt := { delims := delims, delim := delim, pvs := pvs, vals := st.vals ++ [⟨true, v⟩] }
        if delim = pvs then .ok (false, st')
        else
          match getChar line pvs with
          | .error e => .error e
          | .ok c => if c = ',' then .ok (true, { st' with pvs := pvs + 1 }) else .error .parseError

/-- `parse_raw_param_val` (/repo/src/ics/contentline/parser.py:210-222). -/
def parseRaw (line : Str) (st : PSt) : Except PyErr (Bool × PSt) :=
  match findBetween line ',' st.pvs st.delim with
  | none =>
    match unescapeParam (slice line st.pvs st.delim) with
    | .error e => .error e
    | .ok v => .ok (false, { st with vals := st.vals ++ [⟨false, v⟩] })
  | some comma =>
    match unescapeParam (slice line st.pvs comma) with
    | .error e => .error e
    | .ok v => .ok (true, { st with vals := st.vals ++ [⟨false, v⟩], pvs := comma + 1 })

/-- The loop over the values of a parameter (/repo/src/ics/contentline/parser.py:164-175),
unrolled `fuel` times. -/
def parseVals (line : Str) : Nat → PSt → Except PyErr PSt
  | 0, _ => .error .outOfFuel
  | fuel + 1, st =>
    if st.delim ≤ st.pvs then .error .parseError
    else
      match getChar line st.pvs with
      | .error e => .error e
      | .ok c =>
        match (if c = '"' then parseQuoted line st else parseRaw line st) with
        | .error e => .error e
        | .ok (true, st') => parseVals line fuel st'
        | .ok (false, st') => .ok st'

/-- `parse_param` (/repo/src/ics/contentline/parser.py:153-175): returns the parameter name and
the parser state after its values. -/
def parseParam (line : Str) (delim : Nat) (delims : List Nat) : Except PyErr (Str × PSt) :=
  match indexFrom line '=' (delim + 1) with
  | none => .error .parseError
  | some eq =>
    match nextDelim { delims := delims, delim := delim, pvs := eq + 1, vals := [] } with
    | .error e => .error e
    | .ok st =>
      match parseVals line (line.length + 1) st with
      | .error e => .error e
      | .ok st' => .ok (slice line (delim + 1) eq, st')

/-- The `while True` loop of `ContentLineParser.parse` (/repo/src/ics/contentline/parser.py:142-151),
unrolled `fuel` times.  The character at a delimiter position is `:` or `;` by construction; the
`assert` of line 150 is modelled as an error. -/
def parseLoop (line : Str) (name : Str) : Nat → Params → Nat → List Nat → Except PyErr ContentLine
  | 0, _, _, _ => .error .outOfFuel
  | fuel + 1, params, delim, delims =>
    match getChar line delim with
    | .error e => .error e
    | .ok c =>
      if c = ':' then .ok (mkContentLine name params (line.drop (delim + 1)))
      else if c = ';' then
        match parseParam line delim delims with
        | .error e => .error e
        | .ok (pname, st) => parseLoop line name fuel (dictSet params pname st.vals) st.delim st.delims
      else .error .assertionError

/-- `ContentLineParser.parse` (/repo/src/ics/contentline/parser.py:134-151). -/
def parseLine (line : Str) : Except PyErr ContentLine :=
  match delimsFrom 0 line with
  | [] => .error .parseError
  | d :: ds => parseLoop line (line.take d) (line.length + 1) [] d ds

/-- `re.split("\r?\n|\r", txt)` (/repo/src/ics/contentline/parser.py:29-32,
container.py:117); `cur` is the reversed text since the last line break. -/
def splitLines (cur : Str) : Str → List Str
  | [] => [cur.reverse]
  | '\r' :: '\n' :: s => cur.reverse :: splitLines [] s
  | '\r' :: s => cur.reverse :: splitLines [] s
  | '\n' :: s => cur.reverse :: splitLines [] s
  | c :: s => splitLines (c :: cur) s

/-- `string_to_lines` (/repo/src/ics/contentline/parser.py:29-32). -/
def stringToLines (txt : Str) : List Str := splitLines [] txt

/-- Is the character CR or LF (/repo/src/ics/contentline/parser.py:38, 41). -/
def isNl (c : Char) : Bool := c == '\r' || c == '\n'

/-- `line.rstrip("\r\n")` (/repo/src/ics/contentline/parser.py:38). -/
def rstripNl (s : Str) : Str := (s.reverse.dropWhile isNl).reverse

/-- Does the line start with a space or a tab (/repo/src/ics/contentline/parser.py:48, 57). -/
def startsFold : Str → Bool
  | c :: _ => c == ' ' || c == '\t'
  | [] => false

/-- `unfold_lines` (/repo/src/ics/contentline/parser.py:34-64).  `cur` is `"".join(current_lines)`,
`none` when `current_lines` is empty.  Line numbers: see `Model/Located.lean`. -/
def unfoldFrom (cur : Option Str) : List Str → Gen Str
  | [] => ⟨cur.toList, none⟩
  | l :: ls =>
    let line := rstripNl l
    if line.isEmpty then unfoldFrom cur ls
    else if line.any isNl then .raise .parseError
    else
      match cur with
      | none => if startsFold line then .raise .parseError else unfoldFrom (some line) ls
      | some c =>
        if startsFold line then unfoldFrom (some (c ++ line.drop 1)) ls
        else .yield c (unfoldFrom (some line) ls)

/-- `unfold_lines` (/repo/src/ics/contentline/parser.py:34-64). -/
def unfoldLines (ls : List Str) : Gen Str := unfoldFrom none ls

/-- The loop of `lines_to_contentlines` (/repo/src/ics/contentline/parser.py:101-110) over what the
underlying iterator yields; `err` is how that iterator ends. -/
def parseEach (err : Option PyErr) : List Str → Gen ContentLine
  | [] => ⟨[], err⟩
  | l :: ls =>
    match parseLine l with
    | .error e => .raise e
    | .ok cl => .yield cl (parseEach err ls)

/-- `lines_to_contentlines` (/repo/src/ics/contentline/parser.py:101-110). -/
def linesToContentlines (g : Gen Str) : Gen ContentLine := parseEach g.err g.items

/-- The constructor `Container(name, items)` (/repo/src/ics/contentline/container.py:227-232): the
name is upper-cased and must be non-empty (`validate_truthy`, /repo/src/ics/utils.py:167-169). -/
def mkContainer (name : Str) (items : List Item) : Except PyErr Item :=
  if upper name = [] then .error .valueError else .ok (.cont (upper name) items)

/-- `contentlines_to_container` (/repo/src/ics/contentline/parser.py:78-99): consumes the lines up
to the matching END and returns the container and the remaining lines.  `err` is how the iterator
of lines ends, `acc` is `items`.  The loop and the recursion are unrolled `fuel` times; every step
consumes a line.  Warnings about lower-case names are not modelled. -/
def toContainer (err : Option PyErr) :
    Nat → Str → List Item → List ContentLine → Except PyErr (Item × List ContentLine)
  | 0, _, _, _ => .error .outOfFuel
  | _ + 1, _, _, [] => .error (err.getD .parseError)
  | fuel + 1, name, acc, l :: ls =>
    if l.name = "BEGIN".toList then
      match toContainer err fuel l.value [] ls with
      | .error e => .error e
      | .ok (i, rest) => toContainer err fuel name (acc ++ [i]) rest
    else if l.name = "END".toList then
      if upper l.value ≠ upper name then .error .parseError
      else
        match mkContainer name acc with
        | .error e => .error e
        | .ok i => .ok (i, ls)
    else toContainer err fuel name (acc ++ [.line l]) ls

/-- The loop of `contentlines_to_containers` (/repo/src/ics/contentline/parser.py:66-76), unrolled
`fuel` times. -/
def toContainersF (err : Option PyErr) : Nat → List ContentLine → Gen Item
  | _, [] => ⟨[], err⟩
  | 0, _ :: _ => .raise .outOfFuel
  | fuel + 1, l :: ls =>
    if l.name = "BEGIN".toList then
      match toContainer err (ls.length + 1) l.value [] ls with
      | .error e => .raise e
      | .ok (i, rest) => .yield i (toContainersF err fuel rest)
    else .yield (.line l) (toContainersF err fuel ls)

/-- `contentlines_to_containers` (/repo/src/ics/contentline/parser.py:66-76). -/
def toContainers (g : Gen ContentLine) : Gen Item := toContainersF g.err g.items.length g.items

/-- `lines_to_containers` (/repo/src/ics/contentline/parser.py:24-27). -/
def linesToContainers (ls : List Str) : Gen Item :=
  toContainers (linesToContentlines (unfoldLines ls))

/-- `string_to_containers` (/repo/src/ics/contentline/parser.py:19-22). -/
def stringToContainers (txt : Str) : Gen Item := linesToContainers (stringToLines txt)

end Ics
