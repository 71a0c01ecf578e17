import Verif.Py.Basic

/-
`urllib.parse.urlparse` and `ParseResult.geturl` of CPython 3.11 (urllib/parse.py), which
/repo/src/ics/valuetype/generic.py:173, 184 and /repo/src/ics/valuetype/special.py:55, 71 call.
-/
namespace Ics

/-- `urllib.parse.ParseResult`, the type `URL` of /repo/src/ics/types.py (urllib/parse.py:336-339). -/
structure Url where
  scheme : Str := []
  netloc : Str := []
  path : Str := []
  params : Str := []
  query : Str := []
  fragment : Str := []
deriving DecidableEq, Repr

/-- The checks of a network location that need the tables of `unicodedata` and `ipaddress`
(urllib/parse.py:421-451, called by `urlparse` as used in
/repo/src/ics/valuetype/generic.py:173): whether a host in brackets is accepted, and whether a network
location that is not ASCII is accepted.  Every theorem holds for all of them. -/
structure UrlChecks where
  hostOk : Str → Bool
  nfkcOk : Str → Bool

/-- `s.split(c, 1)` with `none` if `c` does not occur (urllib/parse.py:501-504, as used by
/repo/src/ics/valuetype/generic.py:173). -/
def cutAt (c : Char) : Str → Option (Str × Str)
  | [] => none
  | a :: s => if a = c then some ([], s) else (cutAt c s).map fun p => (a :: p.1, p.2)

/-- `uses_netloc` (urllib/parse.py:58-62, used by `geturl`, /repo/src/ics/valuetype/generic.py:184). -/
def usesNetloc : List Str :=
  ["", "ftp", "http", "gopher", "nntp", "telnet", "imap", "wais", "file", "mms", "https", "shttp",
    "snews", "prospero", "rtsp", "rtsps", "rtspu", "rsync", "svn", "svn+ssh", "sftp", "nfs", "git",
    "git+ssh", "ws", "wss"].map String.toList

/-- `uses_params` (urllib/parse.py:64-66, used by `urlparse`, /repo/src/ics/valuetype/generic.py:173). -/
def usesParams : List Str :=
  ["", "ftp", "hdl", "prospero", "http", "imap", "https", "shttp", "rtsp", "rtsps", "rtspu", "sip",
    "sips", "mms", "sftp", "tel"].map String.toList

/-- `c in scheme_chars` (urllib/parse.py:81-84, used by `urlparse`,
/repo/src/ics/valuetype/generic.py:173). -/
def isSchemeChar (c : Char) : Bool :=
  ('a' ≤ c && c ≤ 'z') || ('A' ≤ c && c ≤ 'Z') || ('0' ≤ c && c ≤ '9') || c = '+' || c = '-' || c = '.'

/-- `c.isascii() and c.isalpha()` (urllib/parse.py:487, as used by
/repo/src/ics/valuetype/generic.py:173). -/
def isAsciiAlpha (c : Char) : Bool := ('a' ≤ c && c ≤ 'z') || ('A' ≤ c && c ≤ 'Z')

/-- `url.lstrip(_WHATWG_C0_CONTROL_OR_SPACE)` and the removal of tabs and line breaks
(urllib/parse.py:477-482, as used by /repo/src/ics/valuetype/generic.py:173). -/
def urlStrip (s : Str) : Str :=
  (s.dropWhile fun c => decide (c.toNat ≤ 0x20)).filter fun c => c ≠ '\t' ∧ c ≠ '\r' ∧ c ≠ '\n'

/-- The scheme and the rest (urllib/parse.py:486-492, as used by
/repo/src/ics/valuetype/generic.py:173). -/
def splitScheme (s : Str) : Str × Str :=
  match cutAt ':' s with
  | none => ([], s)
  | some (pre, rest) =>
    match pre with
    | [] => ([], s)
    | c :: _ =>
      if isAsciiAlpha c && pre.all isSchemeChar then (pre.map Char.toLower, rest) else ([], s)

/-- `_splitnetloc(url, 2)` for the part after `//` (urllib/parse.py:413-419, as used by
/repo/src/ics/valuetype/generic.py:173). -/
def splitNetloc (s : Str) : Str × Str :=
  s.span fun c => c ≠ '/' ∧ c ≠ '?' ∧ c ≠ '#'

/-- The checks of the network location (urllib/parse.py:421-451, 495-500, 505, as used by
/repo/src/ics/valuetype/generic.py:173). -/
def netlocValid (k : UrlChecks) (n : Str) : Bool :=
  (n.contains '[' == n.contains ']') &&
    (!n.contains '[' || k.hostOk (((cutAt '[' n).getD ([], [])).2.takeWhile (· ≠ ']'))) &&
    (n.all (fun c => decide (c.toNat < 128)) || k.nfkcOk n)

/-- `'//'` and a network location at the start (urllib/parse.py:493-500, as used by
/repo/src/ics/valuetype/generic.py:173). -/
def takeNetloc : Str → Str × Str
  | '/' :: '/' :: s => splitNetloc s
  | s => ([], s)

/-- `if c in url: url, x = url.split(c, 1)` (urllib/parse.py:501-504, as used by
/repo/src/ics/valuetype/generic.py:173). -/
def cutOff (c : Char) (s : Str) : Str × Str := (cutAt c s).getD (s, [])

/-- `_splitparams` (urllib/parse.py:404-411, as used by /repo/src/ics/valuetype/generic.py:173): a `;`
in the last segment of the path. -/
def splitParams (s : Str) : Str × Str :=
  let last := (s.reverse.takeWhile (· ≠ '/')).reverse
  let front := s.take (s.length - last.length)
  match cutAt ';' last with
  | none => (s, [])
  | some (a, b) => (front ++ a, b)

/-- `urlparse` (urllib/parse.py:374-402, 453-507, as used by /repo/src/ics/valuetype/generic.py:173,
special.py:55). -/
def urlparse (k : UrlChecks) (url : Str) : Except PyErr Url :=
  let (scheme, s) := splitScheme (urlStrip url)
  let (netloc, s) := takeNetloc s
  if netlocValid k netloc then
    let (s, fragment) := cutOff '#' s
    let (s, query) := cutOff '?' s
    let (path, params) := if scheme ∈ usesParams then splitParams s else (s, [])
    .ok ⟨scheme, netloc, path, params, query, fragment⟩
  else .error .valueError

/-- `if x: url = url + c + x` (urllib/parse.py:516-517, 533-536, as used by
/repo/src/ics/valuetype/generic.py:184). -/
def addPart (c : Char) (url x : Str) : Str := if x = [] then url else url ++ c :: x

/-- The network location in front of the path (urllib/parse.py:528-530, as used by
/repo/src/ics/valuetype/generic.py:184). -/
def addNetloc (scheme netloc url : Str) : Str :=
  if netloc ≠ [] ∨ (scheme ≠ [] ∧ scheme ∈ usesNetloc) ∨ url.take 2 = ['/', '/'] then
    ['/', '/'] ++ netloc ++ (if url ≠ [] ∧ url.take 1 ≠ ['/'] then '/' :: url else url)
  else url

/-- `ParseResult.geturl` (urllib/parse.py:338-339, 509-537, as used by
/repo/src/ics/valuetype/generic.py:184, special.py:71). -/
def Url.geturl (u : Url) : Str :=
  let url := addNetloc u.scheme u.netloc (addPart ';' u.path u.params)
  let url := if u.scheme = [] then url else u.scheme ++ ':' :: url
  addPart '#' (addPart '?' url u.query) u.fragment

end Ics
