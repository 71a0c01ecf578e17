import Verif.Spec.Grammar
import Mathlib.Data.List.Forall2

/-
The regular expression `Patterns.LINE` of /repo/src/ics/contentline/container.py:114-129, as rules.
-/
namespace Ics

/-- A control character other than the tabulator. -/
def IsControl (c : Char) : Prop := (c.toNat < 32 ∧ c ≠ '\t') ∨ c.toNat = 127

/-- A letter or digit of ASCII, or a hyphen. -/
def IdentChar (c : Char) : Prop :=
  (97 ≤ c.toNat ∧ c.toNat ≤ 122) ∨ (65 ≤ c.toNat ∧ c.toNat ≤ 90) ∨ (48 ≤ c.toNat ∧ c.toNat ≤ 57) ∨ c.toNat = 45

instance : DecidablePred IdentChar := fun c => by unfold IdentChar; infer_instance

/-- `Patterns.IDENTIFIER` matches all of the text. -/
def Identifier (s : Str) : Prop := s ≠ [] ∧ ∀ c ∈ s, IdentChar c

/-- A value as it is written: whether in quotes, and the text without the quotes. -/
abbrev RawVal := Bool × Str

/-- `Patterns.PVAL` matches all of the text. -/
inductive PvalRe : Str → RawVal → Prop
  | quoted {a : Str} : (∀ c ∈ a, ¬IsControl c ∧ c ≠ '"') → PvalRe ('"' :: a ++ ['"']) (true, a)
  | safe {a : Str} : (∀ c ∈ a, ¬IsControl c ∧ c ≠ '"' ∧ c ≠ ',' ∧ c ≠ ':' ∧ c ≠ ';') → PvalRe a (false, a)

/-- `Patterns.PVALS` matches all of the text. -/
inductive PvalsRe : Str → List RawVal → Prop
  | one {s : Str} {v : RawVal} : PvalRe s v → PvalsRe s [v]
  | more {s r : Str} {v : RawVal} {vs : List RawVal} : PvalRe s v → PvalsRe r vs → PvalsRe (s ++ ',' :: r) (v :: vs)

/-- `(;` + `Patterns.PARAM` + `)*` matches all of the text. -/
inductive ParamsRe : Str → List (Str × List RawVal) → Prop
  | nil : ParamsRe [] []
  | more {n s r : Str} {vs : List RawVal} {ps : List (Str × List RawVal)} : Identifier n → PvalsRe s vs → ParamsRe r ps →
      ParamsRe (';' :: n ++ '=' :: s ++ r) ((n, vs) :: ps)

/-- `Patterns.LINE` matches all of the text, with these groups. -/
def LineRe (line name : Str) (ps : List (Str × List RawVal)) (value : Str) : Prop :=
  Identifier name ∧ (∀ c ∈ value, ¬IsControl c) ∧ ∃ p, ParamsRe p ps ∧ line = name ++ p ++ ':' :: value

/-- The last value is in quotes or not empty. -/
def LastGiven (vs : List RawVal) : Prop := ∀ v, vs.getLast? = some v → v.1 = true ∨ v.2 ≠ []

/-- The values as written mean these values. -/
def Means (raw : List (Str × List RawVal)) (ps : List (Str × List PVal)) : Prop :=
  List.Forall₂ (fun r p => r.1 = p.1 ∧ List.Forall₂ (fun a v => a.1 = v.quoted ∧ CaretText a.2 v.text) r.2 p.2) raw ps

end Ics
