import Verif.Py.Basic

namespace Ics

/-- The TEXT values that may be written in a calendar: ordinary characters and two-character escape
sequences (grammar of RFC 5545 section 3.3.11, extended by `\r`;
compare /repo/src/ics/valuetype/text.py:100-125). -/
inductive TextGrammar : Str → Prop
  | nil : TextGrammar []
  | plain (c : Char) (s : Str) : c ∉ ['\\', ';', ',', '\n', '\r'] → TextGrammar s → TextGrammar (c :: s)
  | esc (c : Char) (s : Str) : c ∈ ['\\', ';', ',', 'n', 'N', 'r', 'R'] → TextGrammar s →
      TextGrammar ('\\' :: c :: s)

end Ics
