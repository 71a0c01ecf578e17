import Verif.Proofs.Exact
import Verif.Proofs.Checks
import Verif.Props.Folding

/-!
C86: exactly which content lines and containers survive being written and parsed.
-/
namespace Ics

/-- C86: parsing the serialization of a content line gives an equal line if and only if the line is writable: the
name is upper case, names have no delimiters, no parameter is there twice, each has a value, of which the last is not
empty without quotes, and no parameter value has a carriage return. -/
theorem C86_line (cl : ContentLine) :
    (∃ cl', parseLine (serUnwrapped cl) = .ok cl' ∧ cl'.unquote = cl.unquote) ↔ WritableLine cl :=
  ⟨fun ⟨_, h, he⟩ => writable_of_roundtrip h he, fun h => ⟨normLine cl, writable_parse h, unquote_norm h⟩⟩

example : WritableLine ⟨"X".toList, [("a".toList, [⟨false, []⟩, ⟨true, []⟩])], "\n".toList⟩ :=
  (C86_line _).1 ⟨⟨"X".toList, [("a".toList, [⟨false, []⟩, ⟨true, []⟩])], "\n".toList⟩, by decide +kernel, rfl⟩

/-- A line with an empty last value without quotes does not survive. -/
example : ¬∃ cl', parseLine (serUnwrapped ⟨"X".toList, [("A".toList, [⟨false, []⟩])], []⟩) = .ok cl' ∧
    cl'.unquote = ContentLine.unquote ⟨"X".toList, [("A".toList, [⟨false, []⟩])], []⟩ := by
  rintro ⟨cl', h, -⟩
  have : parseLine (serUnwrapped ⟨"X".toList, [("A".toList, [⟨false, []⟩])], []⟩) = .error .parseError := by decide +kernel
  rw [this] at h
  cases h

/-- C86: a content line written on its own, folded to any width from 1 on or not at all, with or without a line break
at the end, is read as an equal line, and as nothing else, if and only if it is writable, there is no line break in
its name, its parameter names and its value, and its name does not start with a space or a tab. -/
theorem C86_text (w : Wrap) (hw : w.ok) (newline : Bool) (cl : ContentLine) :
    (∃ txt cl', serLine w newline cl = .ok txt ∧ linesToContentlines (unfoldLines (stringToLines txt)) = Gen.done [cl'] ∧
      cl'.unquote = cl.unquote) ↔
    WritableLine cl ∧ NoBreak cl.name ∧ (∀ p ∈ cl.params, NoBreak p.1) ∧ NoBreak cl.value ∧
      cl.name.head? ≠ some ' ' ∧ cl.name.head? ≠ some '\t' := by
  constructor
  · rintro ⟨txt, cl', h1, h2, he⟩
    have hg : ParsedLine cl' := parseEach_good (err := (unfoldLines (stringToLines txt)).err) (unfold_good txt) cl' (by
      have : (linesToContentlines (unfoldLines (stringToLines txt))).items = [cl'] := by rw [h2]; rfl
      exact this ▸ List.mem_singleton.2 rfl)
    have hname : cl'.name = cl.name := (congrArg ContentLine.name he :)
    have hval : cl'.value = cl.value := (congrArg ContentLine.value he :)
    have hkeys : cl'.params.map Prod.fst = cl.params.map Prod.fst := by rw [← unquote_keys, he, unquote_keys]
    have h3 : ∀ p ∈ cl.params, NoBreak p.1 := fun p hp => by
      have hm := List.mem_map_of_mem (f := Prod.fst) hp
      rw [← hkeys] at hm
      obtain ⟨q, hq, e⟩ := List.mem_map.1 hm
      exact e ▸ hg.pnameBreak q hq
    have h4 := hname ▸ hg.nameBreak
    have h5 := hval ▸ hg.valueBreak
    have h6 := hname ▸ hg.noIndent
    obtain ⟨txt', e1, e2⟩ := C04_serialized_line w hw newline cl h4 h3 h5 h6
    rw [h1] at e1
    cases Except.ok.inj e1
    rw [e2, linesToContentlines] at h2
    refine ⟨writable_of_roundtrip (cl' := cl') ?_ he, h4, h3, h5, h6⟩
    simp only [Gen.done, parseEach] at h2
    cases hp : parseLine (serUnwrapped cl) with
    | error e => rw [hp] at h2; cases h2
    | ok c =>
      rw [hp] at h2
      have h2 : [c] = [cl'] := congrArg Gen.items h2
      rw [List.singleton_inj.1 h2]
  · rintro ⟨h, h1, h2, h3, h4⟩
    obtain ⟨txt, e1, e2⟩ := C04_serialized_line w hw newline cl h1 h2 h3 h4
    refine ⟨txt, normLine cl, e1, ?_, unquote_norm h⟩
    rw [e2, linesToContentlines]
    simp only [Gen.done, parseEach, writable_parse h]
    rfl

/-- A line whose value has a line break, and one whose name starts with a space. -/
example (w : Wrap) (hw : w.ok) : ¬∃ txt cl', serLine w true ⟨"X".toList, [], "a\nY:b".toList⟩ = .ok txt ∧
    linesToContentlines (unfoldLines (stringToLines txt)) = Gen.done [cl'] ∧
      cl'.unquote = ContentLine.unquote ⟨"X".toList, [], "a\nY:b".toList⟩ :=
  fun h => ((C86_text w hw true _).1 h).2.2.2.1.2 (by decide)
example (w : Wrap) (hw : w.ok) : ¬∃ txt cl', serLine w true ⟨" X".toList, [], "a".toList⟩ = .ok txt ∧
    linesToContentlines (unfoldLines (stringToLines txt)) = Gen.done [cl'] ∧
      cl'.unquote = ContentLine.unquote ⟨" X".toList, [], "a".toList⟩ :=
  fun h => ((C86_text w hw true _).1 h).2.2.2.2.1 (by decide)
/-- A line that survives although its parameter value has a line break. -/
example (w : Wrap) (hw : w.ok) : ∃ txt cl', serLine w true ⟨"X".toList, [("A".toList, [⟨false, "1\n2".toList⟩])], "a".toList⟩ = .ok txt ∧
    linesToContentlines (unfoldLines (stringToLines txt)) = Gen.done [cl'] ∧
      cl'.unquote = ContentLine.unquote ⟨"X".toList, [("A".toList, [⟨false, "1\n2".toList⟩])], "a".toList⟩ :=
  (C86_text w hw true _).2 ⟨.of_check (by decide +kernel), ⟨by decide, by decide⟩, by
    intro p hp
    rw [List.mem_singleton.1 hp]
    exact ⟨by decide, by decide⟩, ⟨by decide, by decide⟩, by decide, by decide⟩

/-- C86: a container, folded to any width from 1 on or not at all, is written and then read as one equal container,
and nothing else, if and only if it is writable: the names of all containers in it, and its own, are upper case, not
empty and without line breaks, and all lines in it are writable, have no line break outside of parameter values, do
not start with a space or tab, and are not called BEGIN or END. -/
theorem C86_container (w : Wrap) (hw : w.ok) (newline : Bool) (n : Str) (is : List Item) :
    (∃ txt t, serContainer w newline n is = .ok txt ∧ stringToContainers txt = Gen.done [t] ∧
      t.unquote = (Item.cont n is).unquote) ↔ WritableTree (.cont n is) := by
  constructor
  · rintro ⟨txt, t, h1, h2, he⟩
    exact tree_of_roundtrip hw h1 h2 he
  · intro h
    obtain ⟨txt, h1, h2⟩ := container_roundtrip w hw newline n is h
    exact ⟨txt, _, h1, h2, unquote_normItem _ h⟩

/-- A container with a container in it that survives, and two that do not: a line called END, a name in lower case. -/
example : WritableTree (.cont "A".toList [.line ⟨"X".toList, [("P".toList, [⟨false, "1,2".toList⟩])], "v".toList⟩,
    .cont "B".toList []]) := .of_check _ (by decide +kernel)
example (w : Wrap) (hw : w.ok) : ¬∃ txt t, serContainer w true "A".toList [.line ⟨"END".toList, [], "A".toList⟩] = .ok txt ∧
    stringToContainers txt = Gen.done [t] ∧ t.unquote = (Item.cont "A".toList [.line ⟨"END".toList, [], "A".toList⟩]).unquote := by
  intro h
  have h := (C86_container w hw true _ _).1 h
  rw [WritableTree, WritableTrees, WritableTree] at h
  exact h.2.1.notEnd rfl
example (w : Wrap) (hw : w.ok) : ¬∃ txt t, serContainer w true "a".toList [] = .ok txt ∧
    stringToContainers txt = Gen.done [t] ∧ t.unquote = (Item.cont "a".toList []).unquote := by
  intro h
  have h := (C86_container w hw true _ _).1 h
  rw [WritableTree] at h
  exact absurd h.1.upperName (by decide +kernel)

end Ics
