import Verif.Model.Component

/-
`Component.strip_extras`.
-/
namespace Ics

variable {σ : Type}

/-- The arguments of `strip_extras` (/repo/src/ics/component.py:70-76).  Only booleans and `None`. -/
structure StripArgs where
  allExtras : Bool := false
  extraProperties : Option Bool := none
  extraParams : Option Bool := none
  propertyMerging : Option Bool := none
deriving DecidableEq, Repr

/-- `for v in val: v.pop("__merge_next", None)` for the values that are lists
(/repo/src/ics/component.py:89-93).  The dictionaries are changed in place, which another component that
shares them would see; the model has no sharing. -/
def ExtraVal.stripMerge : ExtraVal → ExtraVal
  | .one p => .one p
  | .many ps => .many (ps.map fun p => dictErase p mergeKey)

/-- `self.extra_params.clear()` or the loop over its values (/repo/src/ics/component.py:86-93). -/
def stripParams (extraParams propertyMerging : Bool) (d : List (Str × ExtraVal)) : List (Str × ExtraVal) :=
  if extraParams then []
  else if propertyMerging then d.map fun kv => (kv.1, kv.2.stripMerge)
  else d

/-- `strip_extras` (/repo/src/ics/component.py:70-93). -/
def stripExtras (a : StripArgs) (o : Obj σ) : Except PyErr (Obj σ) :=
  let properties := a.extraProperties.getD a.allExtras
  let params := a.extraParams.getD a.allExtras
  let merging := a.propertyMerging.getD a.allExtras
  if !(properties || params || merging) then .error .valueError
  else
    let o := if properties then { o with extra := [] } else o
    .ok { o with extraParams := stripParams params merging o.extraParams }

end Ics
