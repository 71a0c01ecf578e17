import Verif.Model.Component

/-
Equality of components is decidable (for the examples).
-/
namespace Ics

mutual
/-- Equality of items (for examples). -/
def Item.same : Item → Item → Bool
  | .line a, .line b => decide (a = b)
  | .cont n is, .cont m js => decide (n = m) && Item.sameList is js
  | .line _, .cont _ _ => false
  | .cont _ _, .line _ => false

/-- Equality of lists of items. -/
def Item.sameList : List Item → List Item → Bool
  | [], [] => true
  | a :: as, b :: bs => Item.same a b && Item.sameList as bs
  | [], _ :: _ => false
  | _ :: _, [] => false
end

mutual
theorem Item.same_iff : (a b : Item) → (Item.same a b = true ↔ a = b)
  | .line a, .line b => by simp [Item.same]
  | .cont n is, .cont m js => by simp [Item.same, Item.sameList_iff is js]
  | .line _, .cont _ _ => by simp [Item.same]
  | .cont _ _, .line _ => by simp [Item.same]

theorem Item.sameList_iff : (a b : List Item) → (Item.sameList a b = true ↔ a = b)
  | [], [] => by simp [Item.sameList]
  | a :: as, b :: bs => by simp [Item.sameList, Item.same_iff a b, Item.sameList_iff as bs]
  | [], _ :: _ => by simp [Item.sameList]
  | _ :: _, [] => by simp [Item.sameList]
end

instance : DecidableEq Item := fun a b => decidable_of_iff _ (Item.same_iff a b)
deriving instance DecidableEq for Obj

end Ics
