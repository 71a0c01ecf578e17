import Verif.Model.Located

/-
What C78 and C79 are about: on which physical line a content line begins, and where in a line the culprit of a parse
error is.
-/
namespace Ics

/-- A physical line that begins a content line: it is not empty and does not start with a space or a tab. -/
def begins : Str → Bool
  | [] => false
  | c :: _ => c != ' ' && c != '\t'

/-- Physical line number `n` begins a content line. -/
def BeginsAt (ls : List Str) (n : Nat) : Prop := ∃ l, ls[n]? = some l ∧ begins l = true

/-- The content line that begins on physical line `n`: that line, and what follows, without the first character of each
line, up to the next line that begins a content line. -/
def contentAt (ls : List Str) (n : Nat) : Str :=
  ls.getD n [] ++ ((ls.drop (n + 1)).takeWhile fun l => !begins l).flatMap (List.drop 1)

/-- The culprit of a `ParseError` of one line: which messages there are, and what is at the columns they name. -/
inductive Culprit (s : Src) : ParseErr → Prop where
  /-- There is no colon or semicolon from the begin of the line, the current parameter or a closing quote on. -/
  | noSeparator (p : Nat) (h : p = 0 ∨ s.line[p - 1]? = some ';' ∨ s.line[p - 1]? = some '"') (hp : p ≤ s.line.length)
      (hn : ∀ c ∈ s.line.drop p, c ≠ ':' ∧ c ≠ ';') : Culprit s ⟨.noSeparator, s.nr, .none, some s.line⟩
  /-- The column is that after a semicolon, and no equals sign follows. -/
  | paramWithoutValue (i : Nat) (h : s.line[i]? = some ';') (hn : '=' ∉ s.line.drop (i + 1)) :
      Culprit s ⟨.paramWithoutValue, s.nr, .at (i + 1), some s.line⟩
  /-- The columns are that of a colon or semicolon, and that after an equals sign or comma, which is not further left. -/
  | emptyValue (a b : Nat) (ha : s.line[a]? = some ':' ∨ s.line[a]? = some ';')
      (hb : s.line[b]? = some '=' ∨ s.line[b]? = some ',') (hab : a ≤ b + 1) :
      Culprit s ⟨.emptyValue, s.nr, .range a (b + 1), some s.line⟩
  /-- The column is that after a quote that follows an equals sign or comma, and there is no further quote. -/
  | missingQuote (i : Nat) (h0 : s.line[i]? = some '=' ∨ s.line[i]? = some ',') (h : s.line[i + 1]? = some '"')
      (hn : '"' ∉ s.line.drop (i + 2)) : Culprit s ⟨.missingQuote, s.nr, .at (i + 2), some s.line⟩
  /-- The columns are that after a quote, where there is something else than a comma, and that of the next colon or
  semicolon. -/
  | trailingContent (a b : Nat) (h : s.line[a]? = some '"') (hab : a + 1 < b)
      (hb : s.line[b]? = some ':' ∨ s.line[b]? = some ';')
      (hn : ∀ i, a < i → i < b → s.line[i]? ≠ some ':' ∧ s.line[i]? ≠ some ';') (hc : s.line[a + 1]? ≠ some ',') :
      Culprit s ⟨.trailingContent, s.nr, .range (a + 1) b, some s.line⟩
  /-- A value has a caret at its end or before a line feed.  The error does not say where. -/
  | endsInEscape (a b : Nat) (v : Str) (hv : v = slice s.line a b) (h : ['^'] <:+ v ∨ ['^', '\n'] <:+: v) :
      Culprit s ⟨.endsInEscape v, none, .none, none⟩
  /-- A value has a caret before another character than n, ^ or '.  The error does not say where. -/
  | invalidEscape (a b : Nat) (v : Str) (g : Char) (hv : v = slice s.line a b) (h : ['^', g] <:+: v)
      (hg : g ≠ 'n' ∧ g ≠ '^' ∧ g ≠ '\'' ∧ g ≠ '\n') : Culprit s ⟨.invalidEscape g v, none, .none, none⟩

mutual
/-- The content lines of an item, in order. -/
def NrItem.lines : NrItem → List NrLine
  | .line l => [l]
  | .cont _ is => NrItem.linesOf is
/-- The content lines of items, in order. -/
def NrItem.linesOf : List NrItem → List NrLine
  | [] => []
  | i :: is => i.lines ++ NrItem.linesOf is
end

/-- How the columns of a parse error are written. -/
def Col.text : Col → Str
  | .none => []
  | .at c => ':' :: natStr c
  | .range a b => ':' :: natStr a ++ '-' :: natStr b

end Ics
