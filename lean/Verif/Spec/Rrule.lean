import Verif.Model.Rrule

/-
Vocabulary for C71.  Nothing here refers to the functions of the model.
-/
namespace Ics

/-- `==` of values is an equivalence, and equal values have the same hash. -/
structure Hashing.Lawful {α : Type} (H : Hashing α) : Prop where
  refl : ∀ a, H.eq a a = true
  symm : ∀ a b, H.eq a b = true → H.eq b a = true
  trans : ∀ a b c, H.eq a b = true → H.eq b c = true → H.eq a c = true
  hash : ∀ a b, H.eq a b = true → H.hash a = H.hash b

/-- The value of the rule under a name: what the rule was made with, else the attribute. -/
def PyRule.value {α : Type} (r : PyRule α) (k : Str) : Option α :=
  match r.original.find? (fun kv => kv.1 = k) with
  | some kv => some kv.2
  | none =>
    if k = "interval".toList then some r.interval
    else if k = "count".toList then some r.count
    else if k = "dtstart".toList then some r.dtstart
    else if k = "freq".toList then some r.freq
    else if k = "until".toList then some r.until_
    else if k = "wkst".toList then some r.wkst
    else none

/-- Both absent, or equal values. -/
def SameOpt {α : Type} (eq : α → α → Bool) : Option α → Option α → Prop
  | none, none => True
  | some a, some b => eq a b = true
  | _, _ => False

/-- Two rules that agree in every value. -/
def SameRule {α : Type} (H : Hashing α) (a b : PyRule α) : Prop := ∀ k, SameOpt H.eq (a.value k) (b.value k)

/-- `_original_rule` is a dictionary: no key occurs twice. -/
def PyRule.Dict {α : Type} (r : PyRule α) : Prop := (r.original.map Prod.fst).Nodup

/-- Two lists of the same length with related elements at each position. -/
def Pointwise {ν : Type} (R : ν → ν → Prop) (a b : List ν) : Prop :=
  a.length = b.length ∧ ∀ i (h : i < a.length) (h' : i < b.length), R a[i] b[i]

/-- All rules of the set are dictionaries. -/
def PyRuleSet.Dicts {α : Type} (s : PyRuleSet α) : Prop := (∀ r ∈ s.rrule, r.Dict) ∧ ∀ r ∈ s.exrule, r.Dict

end Ics
