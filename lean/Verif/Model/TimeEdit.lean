import Verif.Model.Assign
import Verif.Model.Entry

/-
Changing the times of an event or todo that is a component.
-/
namespace Ics

/-- One operation on the time of an event or todo (/repo/src/ics/event.py:101-185, todo.py:66-71), see `Env.edit`: only
`timespan` changes, and only if its validator accepts the new one (types.py:126-140).  `AttributeError` stands for what
happens if there is no time span. -/
def Obj.timeEdit (L : Lib) (m : EntryObj) (c : Edit) : Except PyErr EntryObj :=
  match m.get "timespan".toList with
  | .one (.span s) =>
    match L.edit ⟨m.cls.spanCls, s, none⟩ c with
    | (.ok (), x) => .ok { m with attrs := dictSet m.attrs "timespan".toList (.one (.span x.timespan)) }
    | (.error err, _) => .error err
  | _ => .error .attributeError

/-- Several operations one after the other, all of which succeed (/repo/src/ics/event.py:101-185, todo.py:66-71). -/
def Obj.timeEdits (L : Lib) (m : EntryObj) : List Edit → Except PyErr EntryObj
  | [] => .ok m
  | c :: rest => m.timeEdit L c >>= fun m => m.timeEdits L rest

end Ics
