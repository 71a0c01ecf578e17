import Verif.Model.CalEdit

/-
Changing the properties and components of a calendar that ics.py does not understand.
-/
namespace Ics

/-- `calendar.extra[:] = items`, or the same for the event or todo at some place of a list
(/repo/src/ics/component.py:18-20, /repo/src/ics/contentline/container.py:304-308).  Whatever is done with the methods of
`Container` (`append`, `insert`, `extend`, `del`, `clear`, …, container.py:278-320), the result is as if `items` were assigned.
Simplified: `items` contains content lines and containers only (`check_items`, container.py:268-276). -/
def Obj.putExtra (o : CalObj) (place : Option (CalList × Nat)) (items : List Item) : Except PyErr CalObj :=
  match place with
  | none => .ok { o with extra := items }
  | some (list, i) =>
    match o.get list.attr with
    | .many l =>
      match l[i]? with
      | some (.comp m) => .ok { o with attrs := dictSet o.attrs list.attr (.many (l.set i (.comp { m with extra := items }))) }
      | some _ => .error .attributeError
      | none => .error .indexError
    | _ => .error .typeError

end Ics
