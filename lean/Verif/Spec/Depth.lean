import Verif.Model.Parser

/-
How deeply containers are nested in a tree, and in a list of content lines.
-/
namespace Ics

mutual
/-- The number of containers around the innermost item, a container counting for itself. -/
def Item.depth : Item → Nat
  | .line _ => 0
  | .cont _ items => itemsDepth items + 1
/-- The greatest depth of the items. -/
def itemsDepth : List Item → Nat
  | [] => 0
  | i :: is => max i.depth (itemsDepth is)
end

/-- Reading the lines one by one with a stack of the containers that have been begun: does a BEGIN occur
while `limit` containers are open?  Reading ends where the parser reports an error: at an END for another
container than the innermost one, or for one without a name.  (An END outside of containers is a line.) -/
def deeper (limit : Nat) : List Str → List ContentLine → Bool
  | _, [] => false
  | st, l :: ls =>
    if l.name = "BEGIN".toList then
      if limit ≤ st.length then true else deeper limit (l.value :: st) ls
    else if l.name = "END".toList then
      match st with
      | [] => deeper limit [] ls
      | n :: st => if upper l.value = upper n ∧ n ≠ [] then deeper limit st ls else false
    else deeper limit st ls

end Ics
