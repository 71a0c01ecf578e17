import Verif.Model.Person

/-
What the properties of a person should be: independent variables.
-/
namespace Ics

/-- One variable for every property; it may hold something unreadable. -/
def PersonVars : Type := PersonAttr → Except PyErr PropData

/-- Assigning a variable. -/
def PersonVars.assign (vars : PersonVars) (a : PersonAttr) (d : Except PyErr PropData) : PersonVars :=
  fun b => if b = a then d else vars b

/-- What an access does with variables. -/
def PersonVars.step (vars : PersonVars) : PersonOp → PersonVars × Except PyErr PropData
  | .get a => (vars, vars a)
  | .set a d => (vars.assign a (.ok d), .ok .null)
  | .del a => (vars.assign a (.ok (.ofDefault a.default)), .ok .null)

/-- What a history of accesses does with variables. -/
def PersonVars.run (vars : PersonVars) : List PersonOp → PersonVars × List (Except PyErr PropData)
  | [] => (vars, [])
  | op :: ops =>
    let r := vars.step op
    let rest := PersonVars.run r.1 ops
    (rest.1, r.2 :: rest.2)

/-- The values a property is meant for: text, booleans, and parsed URLs that can be written. -/
def PropVal.Fits (k : UrlChecks) : PConv → PropVal → Prop
  | .raw, .text _ => True
  | .boolean, .bool _ => True
  | .uri, .url u => urlparse k u.geturl = .ok u
  | _, _ => False

/-- Assignments give a property a value, or a list of values, that it is meant for. -/
def PersonOp.Proper (k : UrlChecks) : PersonOp → Prop
  | .set a (.one v) => a.multi = false ∧ v.Fits k a.conv
  | .set a (.many vs) => a.multi = true ∧ ∀ v ∈ vs, v.Fits k a.conv
  | .set _ .null => False
  | .get _ => True
  | .del _ => True

/-- A value up to quotation marks. -/
def PropVal.plain : PropVal → PropVal
  | .text p => .text ⟨false, p.text⟩
  | v => v

/-- The same for what reading a property gives. -/
def PropData.plain : PropData → PropData
  | .null => .null
  | .one v => .one v.plain
  | .many vs => .many (vs.map PropVal.plain)

end Ics
