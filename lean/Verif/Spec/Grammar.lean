import Verif.Model.Contentline
import Mathlib.Data.List.Dedup

/-
The grammar of content lines, written as rules: which texts are content lines, and what they say.
Nothing in here refers to the parser.
-/
namespace Ics

/-- `CaretText s t`: the text `s`, written with carets as in RFC 6868, means `t`. -/
inductive CaretText : Str → Str → Prop
  | nil : CaretText [] []
  | plain {s t : Str} (c : Char) : c ≠ '^' → CaretText s t → CaretText (c :: s) (c :: t)
  | newline {s t : Str} : CaretText s t → CaretText ('^' :: 'n' :: s) ('\n' :: t)
  | caret {s t : Str} : CaretText s t → CaretText ('^' :: '^' :: s) ('^' :: t)
  | quote {s t : Str} : CaretText s t → CaretText ('^' :: '\'' :: s) ('"' :: t)

/-- No colon and no semicolon. -/
def NoDelim (s : Str) : Prop := ':' ∉ s ∧ ';' ∉ s

/-- `ValueText s v`: the text `s` is the parameter value `v`: any text without quotes between two quotes,
or a text without `:`, `;`, `,` that does not start with a quote. -/
inductive ValueText : Str → PVal → Prop
  | quoted {a t : Str} : '"' ∉ a → CaretText a t → ValueText ('"' :: a ++ ['"']) ⟨true, t⟩
  | raw {a t : Str} : NoDelim a → ',' ∉ a → a.head? ≠ some '"' → CaretText a t → ValueText a ⟨false, t⟩

/-- `ValuesText s vs`: the text `s` is the comma-separated list of values `vs`; the last of them is not the
empty text. -/
inductive ValuesText : Str → List PVal → Prop
  | last {s : Str} {v : PVal} : ValueText s v → s ≠ [] → ValuesText s [v]
  | more {s r : Str} {v : PVal} {vs : List PVal} : ValueText s v → ValuesText r vs →
      ValuesText (s ++ ',' :: r) (v :: vs)

/-- `ParamsText s ps`: the text `s` is the sequence of parameters `ps`, each introduced by a semicolon. -/
inductive ParamsText : Str → List (Str × List PVal) → Prop
  | nil : ParamsText [] []
  | more {n s r : Str} {vs : List PVal} {ps : List (Str × List PVal)} : NoDelim n → '=' ∉ n →
      ValuesText s vs → ParamsText r ps → ParamsText (';' :: n ++ '=' :: s ++ r) ((n, vs) :: ps)

/-- The text is a content line with this name, these parameters and this value. -/
def LineText (line name : Str) (ps : List (Str × List PVal)) (value : Str) : Prop :=
  NoDelim name ∧ ∃ p, ParamsText p ps ∧ line = name ++ p ++ ':' :: value

/-- What is said last about the parameter `k`. -/
def lastSaid (ps : List (Str × List PVal)) (k : Str) : List PVal :=
  ((ps.reverse.find? fun p => p.1 = k).map (·.2)).getD []

/-- The names in the order in which they are first mentioned, each once. -/
def firstMentioned (ps : List (Str × List PVal)) : List Str := (ps.map (·.1)).reverse.dedup.reverse

/-- The parameters of a line in which some may be given repeatedly: each once, in the order in which they
are first mentioned, with the values given last. -/
def mergedParams (ps : List (Str × List PVal)) : Params := (firstMentioned ps).map fun k => (k, lastSaid ps k)

end Ics
