import Verif.Model.Clone

/-
What copies are judged by: the value of a tree without identities, and the mutable objects it consists of.
-/
namespace Ics

/-- A parameter value without identities. -/
def HVal.value : HVal → List PVal ⊕ Str
  | .str s => .inr s
  | .list _ vs => .inl vs

/-- The mutable objects of a parameter value. -/
def HVal.objects : HVal → List Nat
  | .str _ => []
  | .list id _ => [id]

mutual
/-- Two trees have the same value, whatever the identities. -/
def HItem.same : HItem → HItem → Prop
  | .line _ _ n p v, .line _ _ n' p' v' =>
    n = n' ∧ p.map (fun x => (x.1, x.2.value)) = p'.map (fun x => (x.1, x.2.value)) ∧ v = v'
  | .cont _ _ n is, .cont _ _ n' is' => n = n' ∧ HItem.sames is is'
  | _, _ => False
/-- The same for lists of items. -/
def HItem.sames : List HItem → List HItem → Prop
  | [], [] => True
  | i :: is, j :: js => i.same j ∧ HItem.sames is js
  | _, _ => False
end

mutual
/-- All the mutable objects a tree consists of. -/
def HItem.objects : HItem → List Nat
  | .line id d _ ps _ => id :: d :: ps.flatMap fun p => p.2.objects
  | .cont id l _ is => id :: l :: HItem.objectss is
/-- The same for lists of items. -/
def HItem.objectss : List HItem → List Nat
  | [] => []
  | i :: is => i.objects ++ HItem.objectss is
end

mutual
/-- All names are upper-case, as the constructors make them. -/
def HItem.upperNames : HItem → Prop
  | .line _ _ n _ _ => upper n = n
  | .cont _ _ n is => upper n = n ∧ HItem.upperNamess is
/-- The same for lists of items. -/
def HItem.upperNamess : List HItem → Prop
  | [] => True
  | i :: is => i.upperNames ∧ HItem.upperNamess is
end

/-- The items of an item: none for a line. -/
def HItem.inner : HItem → List HItem
  | .line .. => []
  | .cont _ _ _ is => is

end Ics
