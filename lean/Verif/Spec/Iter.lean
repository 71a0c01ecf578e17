import Verif.Model.Contentline

/-
What a text should look like line by line.
-/
namespace Ics

/-- The characters that end a line for Python, but not in iCalendar. -/
def OtherLineEnd (c : Char) : Prop := c ∈ ['\x0b', '\x0c', '\x1c', '\x1d', '\x1e', '\u0085', '\u2028', '\u2029']

instance (c : Char) : Decidable (OtherLineEnd c) := inferInstanceAs (Decidable (_ ∈ _))

/-- A line end: CR LF, or one of the characters that end a line. -/
def LineEnd (e : Str) : Prop := e = ['\r', '\n'] ∨ ∃ c, e = [c] ∧ (c = '\r' ∨ c = '\n' ∨ OtherLineEnd c)

/-- A text without any line end in it. -/
def OneLine (s : Str) : Prop := ∀ c ∈ s, c ≠ '\r' ∧ c ≠ '\n' ∧ ¬OtherLineEnd c

end Ics
