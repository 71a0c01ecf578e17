import Verif.Model.Contentline

/-!
Specification vocabulary for content lines and container trees.  Nothing here refers to the parser
or the serializer.
-/
namespace Ics

/-- Forget which parameter values are marked as quoted.  Python compares a `QuotedParamValue` with a
`str` by its text (`collections.UserString.__eq__`), so two content lines are `==` iff they are equal
after this (/repo/src/ics/contentline/container.py:74-84, 132-149). -/
def ContentLine.unquote (cl : ContentLine) : ContentLine :=
  { cl with params := cl.params.map fun p => (p.1, p.2.map fun v => ⟨false, v.text⟩) }

mutual
/-- The same for trees (equality of `Container`s, /repo/src/ics/contentline/container.py:216-232). -/
def Item.unquote : Item → Item
  | .line cl => .line cl.unquote
  | .cont n is => .cont n (Item.unquotes is)
/-- The same for lists of trees (/repo/src/ics/contentline/container.py:216-232). -/
def Item.unquotes : List Item → List Item
  | [] => []
  | i :: is => i.unquote :: Item.unquotes is
end

/-- The content lines a user may write and expect to read back
(/repo/src/ics/contentline/container.py:132-192). -/
structure WritableLine (cl : ContentLine) : Prop where
  /-- the name is upper case (what the constructor establishes) -/
  upperName : upper cl.name = cl.name
  /-- the name contains no delimiter -/
  name : ∀ c ∈ cl.name, c ≠ ':' ∧ c ≠ ';'
  /-- parameter names contain no delimiter -/
  pnames : ∀ p ∈ cl.params, ∀ c ∈ p.1, c ≠ '=' ∧ c ≠ ':' ∧ c ≠ ';'
  /-- keys of a dict -/
  distinct : (cl.params.map Prod.fst).Nodup
  /-- every parameter has a value, and the last one is quoted or non-empty -/
  vals : ∀ p ∈ cl.params, ∃ init last, p.2 = init ++ [last] ∧ (last.quoted = true ∨ last.text ≠ [])
  /-- no parameter value contains a carriage return -/
  nocr : ∀ p ∈ cl.params, ∀ v ∈ p.2, '\r' ∉ v.text

/-- No line break in a string (/repo/src/ics/contentline/parser.py:29-45). -/
def NoBreak (s : Str) : Prop := '\r' ∉ s ∧ '\n' ∉ s

/-- A content line that can be an item of a container: additionally it is not called BEGIN or END,
its name, parameter names and value have no line break, and its name does not start with the folding
whitespace (/repo/src/ics/contentline/container.py:216-258). -/
structure WritableItemLine (cl : ContentLine) : Prop extends WritableLine cl where
  notBegin : cl.name ≠ "BEGIN".toList
  notEnd : cl.name ≠ "END".toList
  nameBreak : NoBreak cl.name
  pnameBreak : ∀ p ∈ cl.params, NoBreak p.1
  valueBreak : NoBreak cl.value
  noIndent : cl.name.head? ≠ some ' ' ∧ cl.name.head? ≠ some '\t'

/-- A container name: non-empty, upper case, without line breaks
(/repo/src/ics/contentline/container.py:227). -/
structure WritableName (n : Str) : Prop where
  ne : n ≠ []
  upperName : upper n = n
  noBreak : NoBreak n

mutual
/-- A tree in which all lines and names are writable (/repo/src/ics/contentline/container.py:216-232). -/
def WritableTree : Item → Prop
  | .line cl => WritableItemLine cl
  | .cont n is => WritableName n ∧ WritableTrees is
/-- The same for the items of a container (/repo/src/ics/contentline/container.py:216-232). -/
def WritableTrees : List Item → Prop
  | [] => True
  | i :: is => WritableTree i ∧ WritableTrees is
end

mutual
/-- The sequence of content lines a tree stands for: a container is a BEGIN line, its items, an END
line (/repo/src/ics/contentline/container.py:249-258). -/
def flatItem : Item → List ContentLine
  | .line cl => [cl]
  | .cont n is => ⟨"BEGIN".toList, [], n⟩ :: (flatItems is ++ [⟨"END".toList, [], n⟩])
/-- The same for a list of trees (/repo/src/ics/contentline/container.py:249-258). -/
def flatItems : List Item → List ContentLine
  | [] => []
  | i :: is => flatItem i ++ flatItems is
end

/-- What may differ between a BEGIN/END line and the one written back: letter case of the container
name, and parameters (/repo/src/ics/contentline/parser.py:66-99). -/
def canonLine (cl : ContentLine) : ContentLine :=
  if cl.name = "BEGIN".toList ∨ cl.name = "END".toList then ⟨cl.name, [], upper cl.value⟩ else cl

/-- Is the sequence of lines well nested, given the names of the containers that are open (innermost
first)?  Every BEGIN opens a container with a non-empty name, every END inside a container closes the
innermost one and must carry its name up to letter case; at the end nothing is open.  An END line
outside of all containers is an ordinary line (/repo/src/ics/contentline/parser.py:66-99). -/
def wellNested : List Str → List ContentLine → Bool
  | st, [] => st.isEmpty
  | st, l :: ls =>
    if l.name = "BEGIN".toList then wellNested (l.value :: st) ls
    else if l.name = "END".toList then
      match st with
      | [] => wellNested [] ls
      | n :: st => upper n == upper l.value && !n.isEmpty && wellNested st ls
    else wellNested st ls

end Ics
