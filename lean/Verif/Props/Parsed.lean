import Verif.Proofs.Parsed
import Verif.Proofs.CalText

/-
C64: whatever was parsed can be written, and is read again as the same.
-/
namespace Ics

/-- C64: every content line that is accepted can be written and is read as an equal one, and as exactly the
same text is written for it again. -/
theorem C64_line (l : Str) (cl : ContentLine) (hl : NoBreak l) (h : parseLine l = .ok cl) :
    ∃ cl', parseLine (serUnwrapped cl) = .ok cl' ∧ cl'.unquote = cl.unquote ∧ serUnwrapped cl' = serUnwrapped cl := by
  have hw := (parseLine_writable h hl).1
  exact ⟨_, writable_parse hw, unquote_norm hw, serUnwrapped_norm hw⟩

example : parseLine "dtstart;x=\"a;b\",c;Y=^n:2:3".toList = .ok ⟨"DTSTART".toList,
      [("x".toList, [⟨true, "a;b".toList⟩, ⟨false, "c".toList⟩]), ("Y".toList, [⟨false, "\n".toList⟩])], "2:3".toList⟩ := by
  decide +kernel

/-- C64: every text that is accepted, unless there is an END line outside of all containers, can be written
with any line length and is read as the same containers and lines; and exactly the same text is written for
these again. -/
theorem C64_document (txt : Str) (is : List Item) (h : stringToContainers txt = Gen.done is)
    (hend : ∀ cl, .line cl ∈ is → cl.name ≠ "END".toList) (w : Wrap) (hw : match w with | .none => True | .width _ W => 1 ≤ W) :
    ∃ txt' is', serItems w is = .ok txt' ∧ stringToContainers txt' = Gen.done is' ∧ Item.unquotes is' = Item.unquotes is ∧
      serItems w is' = .ok txt' := by
  have hw' : w.ok := by cases w <;> exact hw
  have ht : WritableTrees is := writableTrees_of fun i hi => item_good (by rw [h]; exact hi) fun cl e => hend cl (e ▸ hi)
  obtain ⟨txt', h1, h2⟩ := trees_roundtrip w hw' is ht
  exact ⟨txt', _, h1, h2, unquote_normItems is ht, (serItems_norm w is ht).trans h1⟩

/-- C64 for `Container.parse` and `serialize`: one container. -/
theorem C64_container (txt name : Str) (items : List Item) (h : stringToContainers txt = Gen.done [.cont name items])
    (w : Wrap) (hw : match w with | .none => True | .width _ W => 1 ≤ W) (newline : Bool) :
    ∃ txt' items', serContainer w newline name items = .ok txt' ∧
      stringToContainers txt' = Gen.done [.cont name items'] ∧ Item.unquotes items' = Item.unquotes items ∧
      serContainer w newline name items' = .ok txt' := by
  have hw' : w.ok := by cases w <;> exact hw
  have ht : WritableTree (.cont name items) := item_good (by rw [h]; exact List.mem_singleton_self _) fun cl => nofun
  obtain ⟨txt', h1, h2⟩ := container_roundtrip w hw' newline name items ht
  rw [WritableTree] at ht
  refine ⟨txt', _, h1, h2, unquote_normItems items ht.2, ?_⟩
  unfold serContainer at h1 ⊢
  rw [serItems_norm w items ht.2]
  exact h1

/-- A text with folded lines, blank lines, lower-case names and bare line feeds. -/
example : stringToContainers "begin:vcalendar\n\nBEGIN:VEVENT\r\nSUMM\r\n ARY;x=1:a\n\t  b\nend:vevent\rEND:VCALENDAR".toList =
    Gen.done [.cont "VCALENDAR".toList [.cont "VEVENT".toList
      [.line ⟨"SUMMARY".toList, [("x".toList, [⟨false, "1".toList⟩])], "a  b".toList⟩]]] := by decide +kernel

end Ics
