import Verif.Py.Basic

/-!
Specification vocabulary for folding and line endings (RFC 5545 section 3.1).
-/
namespace Ics

/-- `ps` is a folded presentation of the logical line `l`: `l` is cut into pieces, the first of them
non-empty, and a space or a tab is put before each piece but the first
(/repo/src/ics/contentline/parser.py:34-64). -/
structure FoldedAs (l : Str) (ps : List Str) : Prop where
  ex : ∃ (s0 : Str) (segs : List (Char × Str)), l = s0 ++ (segs.map Prod.snd).flatten ∧ s0 ≠ [] ∧
    ps = s0 :: segs.map (fun s => s.1 :: s.2) ∧ ∀ s ∈ segs, s.1 = ' ' ∨ s.1 = '\t'

/-- The three line endings (/repo/src/ics/contentline/parser.py:29-32). -/
inductive Eol where | crlf | lf | cr
deriving DecidableEq, Repr

/-- The characters of a line ending (/repo/src/ics/contentline/parser.py:29-32). -/
def Eol.text : Eol → Str
  | .crlf => ['\r', '\n']
  | .lf => ['\n']
  | .cr => ['\r']

/-- A text made of lines, each with its own line ending, and a last line without one
(/repo/src/ics/contentline/parser.py:29-32). -/
def joinEol (ls : List (Str × Eol)) (last : Str) : Str := ls.flatMap (fun p => p.1 ++ p.2.text) ++ last

/-- Number of octets of the UTF-8 encoding (RFC 5545 section 3.1 limits lines to 75 octets;
compare /repo/src/ics/contentline/container.py:19-29). -/
def octets (s : Str) : Nat := (s.map fun c => c.utf8Size).sum

end Ics
