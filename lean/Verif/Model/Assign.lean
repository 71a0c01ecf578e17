import Verif.Model.Clone

/-
Changing a component after it was made or read: assigning to its attributes, and `add_attendee`.
-/
namespace Ics

/-- `add_attendee` (/repo/src/ics/event.py:268-271, alarm.py:99-102 with `check_is_instance`, utils.py:172-185);
`AttributeError` stands for what happens if there is no list of attendees. -/
def Obj.addAttendee {σ : Type} (o : Obj σ) (v : Val σ) : Except PyErr (Obj σ) :=
  match v with
  | .person true _ _ =>
    match o.get "attendees".toList with
    | .many l => .ok { o with attrs := dictSet o.attrs "attendees".toList (.many (l ++ [v])) }
    | _ => .error .attributeError
  | _ => .error .typeError

/-- What a program does to a component: it assigns to an attribute (`RuntimeAttrValidation.__setattr__`,
/repo/src/ics/types.py:126-140), or it calls `add_attendee` (/repo/src/ics/event.py:268-271, alarm.py:99-102).  A list
that is changed in place is like a list that is assigned, as the converter of a list is `list`
(/repo/src/ics/event.py:262-265). -/
inductive Change (σ : Type) where
  | assign (attr : Str) (v : AttrVal σ)
  | addAttendee (v : Val σ)

/-- One change (/repo/src/ics/types.py:126-140; event.py:268-271).  Simplified: an attribute that the class does not
have gives an `AttributeError`. -/
def Obj.change {σ : Type} (L : Lib) (o : Obj σ) : Change σ → Except PyErr (Obj σ)
  | .assign attr v =>
    match o.cls.attrChecks.find? fun a => a.1 = attr with
    | some a => o.setattr L attr a.2 v
    | none => .error .attributeError
  | .addAttendee v => o.addAttendee v

/-- Several changes, one after the other, all of which succeed (/repo/src/ics/types.py:126-140; event.py:268-271). -/
def Obj.changes {σ : Type} (L : Lib) (o : Obj σ) : List (Change σ) → Except PyErr (Obj σ)
  | [] => .ok o
  | ch :: rest => o.change L ch >>= fun o => o.changes L rest

end Ics
