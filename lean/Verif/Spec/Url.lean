import Verif.Py.Urlparse

/-
URLs that do not survive being written.
-/
namespace Ics

/-- A URL with a scheme that is followed by `//`, but without it, and with a path (or parameters) that is not
absolute, such as `http:foo`. -/
def Url.Slashless (u : Url) : Prop :=
  u.scheme ≠ [] ∧ u.scheme ∈ usesNetloc ∧ u.netloc = [] ∧ (u.path ≠ [] ∨ u.params ≠ []) ∧ u.path.head? ≠ some '/'

instance (u : Url) : Decidable u.Slashless := by unfold Url.Slashless; infer_instance

end Ics
