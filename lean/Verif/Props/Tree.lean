import Verif.Props.Folding
import Verif.Proofs.Checks

/-!
C08, C09: container trees.
-/
namespace Ics

/-! ### C08 -/

/-- C08: parsing the text of a container gives back exactly one container, equal to the original,
for every tree, every width and word splitter, with or without a final line break. -/
theorem C08_roundtrip (w : Wrap) (hw : match w with | .none => True | .width _ W => 1 ≤ W)
    (newline : Bool) (name : Str) (items : List Item) (h : WritableTree (.cont name items)) :
    ∃ txt i, serContainer w newline name items = .ok txt ∧ stringToContainers txt = Gen.done [i] ∧
      i.unquote = (Item.cont name items).unquote := by
  have hw' : w.ok := by cases w <;> exact hw
  obtain ⟨txt, h1, h2⟩ := container_roundtrip w hw' newline name items h
  exact ⟨txt, _, h1, h2, unquote_normItem _ h⟩

/-- A calendar with a nested event, a parameter that must be quoted and an escaped line feed. -/
def C08_sample : List Item :=
  [.line ⟨"VERSION".toList, [], "2.0".toList⟩,
   .cont "VEVENT".toList
     [.line ⟨"SUMMARY".toList, [("X-A".toList, [⟨false, "a:b\n".toList⟩])], "Lunch\\, at noon".toList⟩,
      .cont "VALARM".toList []]]

example : WritableTree (.cont "VCALENDAR".toList C08_sample) := .of_check _ (by decide +kernel)

/-! ### C09 -/

/-- C09: if parsing succeeds, the lines of the parsed trees are the input lines, in order (BEGIN/END
lines up to letter case and parameters). -/
theorem C09_lossless (ls : List ContentLine) (h : (toContainers (Gen.done ls)).err = none) :
    (flatItems (toContainers (Gen.done ls)).items).map canonLine = ls.map canonLine :=
  ((toContainersF_spec ls.length none ls (Nat.le_refl _)).1 h).2.2

/-- C09: parsing succeeds exactly when BEGIN and END lines are well nested. -/
theorem C09_iff_nested (ls : List ContentLine) :
    (toContainers (Gen.done ls)).err = none ↔ wellNested [] ls = true :=
  ⟨fun h => ((toContainersF_spec ls.length none ls (Nat.le_refl _)).1 h).2.1,
   fun h => (toContainersF_spec ls.length none ls (Nat.le_refl _)).2.1 rfl h⟩

/-- C09: the failures are `ParseError`s (or `ValueError` for a container without a name). -/
theorem C09_error (ls : List ContentLine) (e : PyErr) (h : (toContainers (Gen.done ls)).err = some e) :
    e = .parseError ∨ (e = .valueError ∧ ∃ l ∈ ls, l.name = "BEGIN".toList ∧ l.value = []) := by
  rcases (toContainersF_spec ls.length none ls (Nat.le_refl _)).2.2 e h with h | h | h
  · exact Or.inl h
  · exact Or.inr h
  · simp at h

/-- Nested containers with differing letter case, and an ordinary line. -/
def C09_sample : List ContentLine :=
  [⟨"BEGIN".toList, [], "vcalendar".toList⟩, ⟨"BEGIN".toList, [("X".toList, [])], "VEVENT".toList⟩,
   ⟨"UID".toList, [], "1".toList⟩, ⟨"END".toList, [], "vevent".toList⟩, ⟨"END".toList, [], "VCALENDAR".toList⟩]

example : (toContainers (Gen.done C09_sample)).err = none := by decide +kernel
example : wellNested [] (C09_sample.take 4) = false := by decide +kernel
example : (toContainers (Gen.done (C09_sample.take 4))).err = some .parseError := by decide +kernel

end Ics
