import Verif.Model.Value
import Verif.Model.Parser

/-
The properties of attendees and organizers, which live in the parameters `extra` of the person
(/repo/src/ics/attendee.py).
-/
namespace Ics

/-- The converters used for properties (/repo/src/ics/attendee.py:16, 42, 77-79, 108-114). -/
inductive PConv where
  | raw
  | uri
  | boolean
deriving DecidableEq, Repr

/-- What properties are given and give: a `str` or `QuotedParamValue`, a `bool`, a `ParseResult`, or the
`ParseResultBytes` that `urlparse` makes of an empty `QuotedParamValue`
(/repo/src/ics/attendee.py:19-33; urllib/parse.py:104-118, 341-345). -/
inductive PropVal where
  | text (p : PVal)
  | bool (b : Bool)
  | url (u : Url)
  | emptyBytesUrl
deriving DecidableEq, Repr

/-- `converter.parse(value)` of a parameter value (/repo/src/ics/valuetype/text.py:22-28, generic.py:57-78,
167-173).  A value that was quoted is a `UserString`, which `urlparse` takes for `bytes`: it calls
`value.decode`, which a `UserString` does not have, unless the value is empty
(/repo/src/ics/contentline/container.py:74; urllib/parse.py:88-118). -/
def PConv.parse (k : UrlChecks) (c : PConv) (p : PVal) : Except PyErr PropVal :=
  match c with
  | .raw => .ok (.text p)
  | .boolean => (boolParse p.text).map .bool
  | .uri =>
    if p.quoted then (if p.text = [] then .ok .emptyBytesUrl else .error .attributeError)
    else (urlparse k p.text).map .url

/-- `converter.serialize(value)` (/repo/src/ics/valuetype/text.py:30-36, generic.py:80-91, 175-184).
Simplified: the raw converter stores anything as it is; here values that are not text are given a
`TypeError`.  `ParseResultBytes.geturl` gives `bytes`, which are not modelled either. -/
def PConv.serialize (c : PConv) (v : PropVal) : Except PyErr PVal :=
  match c, v with
  | .raw, .text p => .ok p
  | .raw, _ => .error .typeError
  | .boolean, .bool b => .ok ⟨false, boolSerialize b⟩
  | .boolean, .text ⟨false, s⟩ => (boolParse s).map fun b => ⟨false, boolSerialize b⟩
  | .boolean, .text ⟨true, s⟩ => .ok ⟨false, boolSerialize (!s.isEmpty)⟩
  | .boolean, .url _ => .ok ⟨false, boolSerialize true⟩
  | .boolean, .emptyBytesUrl => .ok ⟨false, boolSerialize true⟩
  | .uri, .url u => .ok ⟨false, u.geturl⟩
  | .uri, .text ⟨false, s⟩ => .ok ⟨false, s⟩
  | .uri, .text ⟨true, _⟩ => .error .attributeError
  | .uri, .bool _ => .error .attributeError
  | .uri, .emptyBytesUrl => .error .typeError

/-- The properties of an `Attendee`; the first three are those of an `Organizer`
(/repo/src/ics/attendee.py:77-79, 108-114). -/
inductive PersonAttr where
  | sentBy
  | commonName
  | directory
  | userType
  | member
  | role
  | status
  | rsvp
  | delegatedTo
  | delegatedFrom
deriving DecidableEq, Repr

/-- The name of the parameter (/repo/src/ics/attendee.py:77-79, 108-114). -/
def PersonAttr.param : PersonAttr → Str
  | .sentBy => "SENT-BY".toList
  | .commonName => "CN".toList
  | .directory => "DIR".toList
  | .userType => "CUTYPE".toList
  | .member => "MEMBER".toList
  | .role => "ROLE".toList
  | .status => "PARTSTAT".toList
  | .rsvp => "RSVP".toList
  | .delegatedTo => "DELEGATED-TO".toList
  | .delegatedFrom => "DELEGATED-FROM".toList

/-- The converter (/repo/src/ics/attendee.py:77-79, 108-114). -/
def PersonAttr.conv : PersonAttr → PConv
  | .sentBy | .directory | .member | .delegatedTo | .delegatedFrom => .uri
  | .rsvp => .boolean
  | .commonName | .userType | .role | .status => .raw

/-- `PersonMultiProperty` instead of `PersonProperty` (/repo/src/ics/attendee.py:77-79, 108-114). -/
def PersonAttr.multi : PersonAttr → Bool
  | .member | .delegatedTo | .delegatedFrom => true
  | _ => false

/-- The default (/repo/src/ics/attendee.py:77-79, 108-114). -/
def PersonAttr.default : PersonAttr → Option PropVal
  | .userType => some (.text ⟨false, "INDIVIDUAL".toList⟩)
  | .role => some (.text ⟨false, "REQ-PARTICIPANT".toList⟩)
  | .status => some (.text ⟨false, "NEEDS-ACTION".toList⟩)
  | .rsvp => some (.bool false)
  | _ => none

/-- What a property is assigned, and what reading it gives (`null` is `None`)
(/repo/src/ics/attendee.py:19-54). -/
inductive PropData where
  | null
  | one (v : PropVal)
  | many (vs : List PropVal)
deriving DecidableEq, Repr

/-- A default as a result (/repo/src/ics/attendee.py:21, 24, 47). -/
def PropData.ofDefault : Option PropVal → PropData
  | none => .null
  | some v => .one v

/-- `[f(v) for v in vs]`, stopping at the first exception (/repo/src/ics/attendee.py:48, 51). -/
def eachM {α β : Type} (f : α → Except PyErr β) : List α → Except PyErr (List β)
  | [] => .ok []
  | a :: l => do
    let b ← f a
    let bs ← eachM f l
    .ok (b :: bs)

/-- `PersonProperty.__get__` and `PersonMultiProperty.__get__` (/repo/src/ics/attendee.py:19-30, 45-48). -/
def personGet (k : UrlChecks) (extra : Params) (a : PersonAttr) : Except PyErr PropData :=
  match dictGet? extra a.param with
  | none => .ok (.ofDefault a.default)
  | some ps =>
    if a.multi then (eachM (a.conv.parse k) ps).map .many
    else
      match ps with
      | [] => .ok (.ofDefault a.default)
      | [p] => (a.conv.parse k p).map .one
      | _ => .error .valueError

/-- Iterating over the value given to a `PersonMultiProperty`: a string gives its characters and a
`ParseResult` its six parts (/repo/src/ics/attendee.py:51; urllib/parse.py:336). -/
def PropData.iter : PropData → Except PyErr (List PropVal)
  | .many vs => .ok vs
  | .one (.text p) => .ok (p.text.map fun c => .text ⟨p.quoted, [c]⟩)
  | .one (.url u) =>
    .ok ([u.scheme, u.netloc, u.path, u.params, u.query, u.fragment].map fun s => .text ⟨false, s⟩)
  | .one (.bool _) => .error .typeError
  | .one .emptyBytesUrl => .error .typeError
  | .null => .error .typeError

/-- `PersonProperty.__set__` and `PersonMultiProperty.__set__` (/repo/src/ics/attendee.py:32-33, 50-51).
Simplified: a list or `None` given to a single property with the raw converter is a `TypeError` here, while
Python stores it; the boolean converter takes the truth value and the URI converter finds no `geturl`. -/
def personSet (extra : Params) (a : PersonAttr) (d : PropData) : Except PyErr Params :=
  if a.multi then do
    let vs ← d.iter
    let ps ← eachM a.conv.serialize vs
    .ok (dictSet extra a.param ps)
  else
    match d with
    | .one v => do
      let p ← a.conv.serialize v
      .ok (dictSet extra a.param [p])
    | .many vs =>
      match a.conv with
      | .raw => .error .typeError
      | .uri => .error .attributeError
      | .boolean => .ok (dictSet extra a.param [⟨false, boolSerialize (!vs.isEmpty)⟩])
    | .null =>
      match a.conv with
      | .raw => .error .typeError
      | .uri => .error .attributeError
      | .boolean => .ok (dictSet extra a.param [⟨false, boolSerialize false⟩])

/-- `__delete__` (/repo/src/ics/attendee.py:35-36, 53-54). -/
def personDel (extra : Params) (a : PersonAttr) : Params := dictErase extra a.param

/-- An access to a property (/repo/src/ics/attendee.py:19-54). -/
inductive PersonOp where
  | get (a : PersonAttr)
  | set (a : PersonAttr) (d : PropData)
  | del (a : PersonAttr)

/-- One access: the parameters afterwards and what it gives; `None` for a statement.  If converting raises,
nothing has been assigned (/repo/src/ics/attendee.py:19-54). -/
def PersonOp.step (k : UrlChecks) (extra : Params) : PersonOp → Params × Except PyErr PropData
  | .get a => (extra, personGet k extra a)
  | .set a d =>
    match personSet extra a d with
    | .ok extra' => (extra', .ok .null)
    | .error e => (extra, .error e)
  | .del a => (personDel extra a, .ok .null)

/-- A history of accesses and all results (/repo/src/ics/attendee.py:19-54). -/
def personRun (k : UrlChecks) (extra : Params) : List PersonOp → Params × List (Except PyErr PropData)
  | [] => (extra, [])
  | op :: ops =>
    let r := op.step k extra
    let rest := personRun k r.1 ops
    (rest.1, r.2 :: rest.2)

/-- The person after its line was written and the text was read again: `PersonConverter.serialize`, the
content line, `PersonConverter.parse` (/repo/src/ics/valuetype/special.py:49-71,
contentline/container.py:168-192, contentline/parser.py:129-222).  Only the parameters and e-mail address
matter here; the rest of the component is in Model/Component. -/
def personReread (k : UrlChecks) (name : Str) (email : Url) (extra : Params) :
    Except PyErr (Url × Params) := do
  let cl ← parseLine (serUnwrapped ⟨name, dictUpdate [] extra, email.geturl⟩)
  let u ← urlparse k cl.value
  .ok (u, cl.params)

end Ics
