import Verif.Spec.Represent
import Verif.Model.Strip

/-
What `strip_extras` should do.
-/
namespace Ics

variable {σ : Type}

/-- One of the three things is to be removed: it was asked for, or everything was and nothing else was said. -/
def Asked (all : Bool) (x : Option Bool) : Prop := x = some true ∨ (x = none ∧ all = true)

/-- The same dictionary without the mark that says that the next value is on the same line. -/
def WithoutMark (p q : Params) : Prop :=
  ∀ k, dictGet? q k = if k = "__merge_next".toList then none else dictGet? p k

/-- The same parameters, but without the marks of the values of lists. -/
def WithoutMarks : ExtraVal → ExtraVal → Prop
  | .one p, .one q => p = q
  | .many ps, .many qs => List.Forall₂ WithoutMark ps qs
  | _, _ => False

/-- The dictionaries of the values of lists have no key twice. -/
def MarksUnique (o : Obj σ) : Prop :=
  ∀ k ps, (k, .many ps) ∈ o.extraParams → ∀ p ∈ ps, (p.map Prod.fst).Nodup

/-- The same class and the same values of all attributes. -/
def KeptAttrs (L : Lib) (R : σ → σ → Prop) (a b : Obj σ) : Prop :=
  a.cls = b.cls ∧ ∀ k ∈ allAttrs a.cls, SameAttr L R (a.get k.toList) (b.get k.toList)

end Ics
