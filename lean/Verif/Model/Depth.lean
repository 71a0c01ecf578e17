import Verif.Model.Parser

/-
The parser and the writer of containers with Python's recursion limit.  `limit` is the number of nested
calls that are still possible; the calls that are always in progress (the generators for lines, the
caller) are not counted.
-/
namespace Ics

/-- An exception that is raised: one of those modelled elsewhere, or `RecursionError`, which Python raises
instead of a call that is nested too deeply (calls in /repo/src/ics/contentline/parser.py:74, 86 and
/repo/src/ics/contentline/container.py:254). -/
inductive DeepErr where
  | py (e : PyErr)
  | recursion
deriving DecidableEq, Repr

/-- `contentlines_to_container` (/repo/src/ics/contentline/parser.py:78-99) like `toContainer`, in a call
that leaves room for `limit` more. -/
def toContainerL (err : Option PyErr) :
    Nat → Nat → Str → List Item → List ContentLine → Except DeepErr (Item × List ContentLine)
  | _, 0, _, _, _ => .error (.py .outOfFuel)
  | _, _ + 1, _, _, [] => .error (.py (err.getD .parseError))
  | limit, fuel + 1, name, acc, l :: ls =>
    if l.name = "BEGIN".toList then
      match limit with
      | 0 => .error .recursion
      | below + 1 =>
        match toContainerL err below fuel l.value [] ls with
        | .error e => .error e
        | .ok (i, rest) => toContainerL err (below + 1) fuel name (acc ++ [i]) rest
    else if l.name = "END".toList then
      if upper l.value ≠ upper name then .error (.py .parseError)
      else
        match mkContainer name acc with
        | .error e => .error (.py e)
        | .ok i => .ok (i, ls)
    else toContainerL err limit fuel name (acc ++ [.line l]) ls

/-- What a generator yields, and the exception that ends it
(/repo/src/ics/contentline/parser.py:66-76). -/
structure DeepGen where
  items : List Item
  err : Option DeepErr

/-- `contentlines_to_containers` (/repo/src/ics/contentline/parser.py:66-76) like `toContainersF`, with
room for `limit` calls. -/
def toContainersL (err : Option PyErr) (limit : Nat) : Nat → List ContentLine → DeepGen
  | _, [] => ⟨[], err.map .py⟩
  | 0, _ :: _ => ⟨[], some (.py .outOfFuel)⟩
  | fuel + 1, l :: ls =>
    if l.name = "BEGIN".toList then
      match limit with
      | 0 => ⟨[], some .recursion⟩
      | below + 1 =>
        match toContainerL err below (ls.length + 1) l.value [] ls with
        | .error e => ⟨[], some e⟩
        | .ok (i, rest) =>
          let g := toContainersL err (below + 1) fuel rest
          ⟨i :: g.items, g.err⟩
    else
      let g := toContainersL err limit fuel ls
      ⟨.line l :: g.items, g.err⟩

/-- `string_to_containers` (/repo/src/ics/contentline/parser.py:19-22) with room for `limit` nested calls of
`contentlines_to_container`. -/
def stringToContainersL (limit : Nat) (txt : Str) : DeepGen :=
  let g := linesToContentlines (unfoldLines (stringToLines txt))
  toContainersL g.err limit g.items.length g.items

mutual
/-- `serialize_iter` of an item of a container (/repo/src/ics/contentline/container.py:156-166, 249-258)
like `serItem`, with room for `limit` nested generators of containers. -/
def serItemL (w : Wrap) (limit : Nat) : Item → Except DeepErr Str
  | .line cl =>
    match serLine w true cl with
    | .ok s => .ok s
    | .error e => .error (.py e)
  | .cont name items =>
    match limit with
    | 0 => .error .recursion
    | below + 1 =>
      match serItemsL w below items with
      | .error e => .error e
      | .ok body => .ok ("BEGIN:".toList ++ name ++ crlf ++ body ++ "END:".toList ++ name ++ crlf)
/-- The loop over the items of a container (/repo/src/ics/contentline/container.py:253-254), with room
for `limit` nested generators of containers. -/
def serItemsL (w : Wrap) (limit : Nat) : List Item → Except DeepErr Str
  | [] => .ok []
  | i :: is =>
    match serItemL w limit i with
    | .error e => .error e
    | .ok a =>
      match serItemsL w limit is with
      | .error e => .error e
      | .ok b => .ok (a ++ b)
end

end Ics
