import Verif.Proofs.LineText
import Verif.Proofs.Vtimezone
import Verif.Props.Folding

/-!
C85: the text of single content lines, as given by `ContentLine.serialize` and to the parser of recurrence rules.
-/
namespace Ics

/-- C85: without a line break at the end, or without wrapping, `serialize` is what `serialize_iter` gives. -/
theorem C85_same (w : Wrap) (hw : w.ok) (newline : Bool) (cl : ContentLine) (h : newline = false ∨ w = .none) :
    serText w newline cl = serLine w newline cl := by
  have key : ∀ ps : List Str, ps ≠ [] → joinCrlf ps = ps.dropLast.flatMap (· ++ crlf) ++ ps.getLast?.getD [] := by
    intro ps h0
    obtain ⟨init, l, rfl⟩ : ∃ init l, ps = init ++ [l] :=
      ⟨_, _, (List.dropLast_concat_getLast h0).symm⟩
    rw [joinCrlf_concat, List.dropLast_concat, List.getLast?_concat]
    rfl
  cases newline with
  | false =>
    obtain ⟨ps, h1, h2⟩ := physLines_folded w hw (serUnwrapped cl) (serUnwrapped_ne cl)
    have hps : ps ≠ [] := by obtain ⟨s0, segs, -, -, rfl, -⟩ := h2.ex; exact List.cons_ne_nil _ _
    unfold serText serLine
    rw [if_neg Bool.false_ne_true, List.append_nil, h1]
    dsimp only
    rw [if_neg Bool.false_ne_true, if_neg hps, ← key ps hps]
    rfl
  | true =>
    obtain h | rfl := h
    · cases h
    · unfold serText serLine physLines
      dsimp only
      rw [if_pos rfl, if_pos rfl]
      simp only [Except.map, joinCrlf, List.flatMap_cons, List.flatMap_nil, List.append_nil]

example : serText (.width .chars 5) false ⟨"A".toList, [], "bcdefg".toList⟩ = .ok "A:bcd\r\n efg".toList := by
  decide +kernel

/-- C85: with a line break at the end, if the line break is a word of its own: the lines are those of the text, each
with a line break; but if the last one has no room for two more characters, a line with a space follows. -/
theorem C85_newline (ch : Chunker) (W : Nat) (hW : 3 ≤ W) (cl : ContentLine)
    (hch : ch.split (serUnwrapped cl ++ crlf) = ch.split (serUnwrapped cl) ++ [crlf]) :
    ∃ init l, wrap ch W (serUnwrapped cl) = .ok (init ++ [l]) ∧
      serText (.width ch W) true cl =
        .ok ((init ++ [l]).flatMap (· ++ crlf) ++ if l.length + 2 ≤ W then [] else " \r\n".toList) := by
  have h0 : ch.split (serUnwrapped cl) ≠ [] := by
    intro e
    have := ch.flatten_split (serUnwrapped cl)
    rw [e] at this
    exact serUnwrapped_ne cl this.symm
  obtain ⟨s0, segs, hw, -⟩ := wrap_spec ch W (by omega) (serUnwrapped cl) (serUnwrapped_ne cl)
  generalize s0 :: segs.map (' ' :: ·) = ps at hw
  have hw' := hw
  unfold wrap wrapChunks at hw'
  rw [if_neg (by omega)] at hw'
  obtain ⟨init, l, rfl, e⟩ := wrapLoop_concat (W := W) crlf hW _ _ _ _ h0 hw'
  refine ⟨init, l, hw, ?_⟩
  unfold serText physLines
  dsimp only
  rw [if_pos rfl]
  have e1 : wrap ch W (serUnwrapped cl ++ crlf) =
      .ok (init ++ if l.length + crlf.length ≤ W then [l ++ crlf] else [l, ' ' :: crlf]) := by
    unfold wrap wrapChunks
    rw [if_neg (by omega), hch]
    have hf : (ch.split (serUnwrapped cl) ++ [crlf]).flatten.length + (ch.split (serUnwrapped cl) ++ [crlf]).length + 1 =
        (ch.split (serUnwrapped cl)).flatten.length + (ch.split (serUnwrapped cl)).length + 1 + 1 + 1 + 1 := by
      rw [List.flatten_append, List.length_append, List.length_append]
      show _ + 2 + (_ + 1) + 1 = _
      omega
    rw [hf]
    exact wrapLoop_more _ _ _ _ (wrapLoop_more _ _ _ _ e)
  rw [e1]
  show Except.ok (joinCrlf _) = _
  refine congrArg Except.ok ?_
  by_cases hl : l.length + 2 ≤ W
  · rw [if_pos (show l.length + crlf.length ≤ W from hl), if_pos hl, joinCrlf_concat, List.flatMap_append]
    simp only [List.flatMap_cons, List.flatMap_nil, List.append_nil]
  · rw [if_neg (show ¬ l.length + crlf.length ≤ W from hl), if_neg hl,
      show init ++ [l, ' ' :: crlf] = (init ++ [l]) ++ [' ' :: crlf] by rw [List.append_assoc]; rfl, joinCrlf_concat]
    rfl

/-- A word splitter that only cuts off the line break at the end (used in examples). -/
def Chunker.lines : Chunker where
  split t := if t.drop (t.length - 2) = crlf ∧ 2 < t.length then [t.take (t.length - 2), t.drop (t.length - 2)]
    else if t = [] then [] else [t]
  flatten_split t := by
    split
    · rw [List.flatten_cons, List.flatten_cons, List.flatten_nil, List.append_nil, List.take_append_drop]
    · split
      · rename_i h; rw [h]; rfl
      · rw [List.flatten_cons, List.flatten_nil, List.append_nil]
  ne_nil t c h := by
    split at h
    · rename_i ht
      rcases List.mem_cons.1 h with rfl | h
      · intro e
        have := congrArg List.length e
        rw [List.length_take, List.length_nil] at this
        omega
      · rw [List.mem_singleton.1 h, ht.1]
        exact List.cons_ne_nil _ _
    · split at h
      · exact absurd h List.not_mem_nil
      · rename_i h0
        rw [List.mem_singleton.1 h]
        exact h0

/-- Lines with and without room for the line break. -/
example :
    (Chunker.lines.split (serUnwrapped ⟨"A".toList, [], "bcd".toList⟩ ++ crlf) =
      Chunker.lines.split (serUnwrapped ⟨"A".toList, [], "bcd".toList⟩) ++ [crlf]) ∧
    serText (.width .lines 7) true ⟨"A".toList, [], "bcd".toList⟩ = .ok "A:bcd\r\n".toList ∧
    serText (.width .lines 6) true ⟨"A".toList, [], "bcd".toList⟩ = .ok "A:bcd\r\n \r\n".toList := by decide +kernel

/-- C85: what is written is read as the same line, with and without a line break at the end, for every width and every
word splitter – also if the line break does not fit on the last line or is cut in two. -/
theorem C85_read (w : Wrap) (hw : w.ok) (newline : Bool) (cl : ContentLine)
    (hn : NoBreak cl.name) (hp : ∀ p ∈ cl.params, NoBreak p.1) (hv : NoBreak cl.value)
    (hi : cl.name.head? ≠ some ' ' ∧ cl.name.head? ≠ some '\t') :
    ∃ txt, serText w newline cl = .ok txt ∧ unfoldLines (stringToLines txt) = Gen.done [serUnwrapped cl] := by
  have hok := serUnwrapped_logical hn hp hv hi
  obtain ⟨txt, h1, h2⟩ := serText_folded w hw newline cl hok
  refine ⟨txt, h1, ?_⟩
  rw [unfold_fullLines]
  have := unfold_doc [(serUnwrapped cl, fullLines txt)]
    (by intro p hp; rw [List.mem_singleton.1 hp]; exact ⟨h2, hok⟩)
  simpa only [List.flatMap_cons, List.flatMap_nil, List.append_nil, List.map_cons, List.map_nil] using this

/-- A line break that is cut in two. -/
example : serText (.width .chars 5) true ⟨"A".toList, [], "bc".toList⟩ = .ok "A:bc\r\r\n \n".toList ∧
    unfoldLines (stringToLines "A:bc\r\r\n \n".toList) = Gen.done ["A:bc".toList] := by decide +kernel

/-- C85: the text that is given to the parser of recurrence rules has exactly the lines of the component, if there is
room for two characters in a line. -/
theorem C85_recurrence (w : Wrap) (hw : ∀ ch W, w = .width ch W → 2 ≤ W) (cls : List ContentLine)
    (hn : ∀ cl ∈ cls, NoBreak cl.name ∧ (∀ p ∈ cl.params, NoBreak p.1) ∧ NoBreak cl.value ∧
      cl.name.head? ≠ some ' ' ∧ cl.name.head? ≠ some '\t') :
    ∃ txt, recurText w cls = .ok txt ∧ unfoldLines (stringToLines txt) = Gen.done (cls.map serUnwrapped) := by
  have hr : w.roomy := by
    cases w with
    | none => trivial
    | width ch W => exact hw ch W rfl
  have key : ∃ txt, recurText w cls = .ok txt ∧ ∃ doc : List (Str × List Str), fullLines txt = doc.flatMap Prod.snd ∧
      doc.map Prod.fst = cls.map serUnwrapped ∧ ∀ p ∈ doc, FoldedAs p.1 p.2 ∧ LogicalOk p.1 := by
    induction cls with
    | nil => exact ⟨[], rfl, [], rfl, rfl, fun _ h => absurd h List.not_mem_nil⟩
    | cons cl cls ih =>
      obtain ⟨t2, h2, doc, d1, d2, d3⟩ := ih fun c hc => hn c (List.mem_cons_of_mem _ hc)
      obtain ⟨g1, g2, g3, g4⟩ := hn cl List.mem_cons_self
      have hok := serUnwrapped_logical g1 g2 g3 g4
      obtain ⟨t1, h1, hf⟩ := serText_folded w hr.ok true cl hok
      refine ⟨t1 ++ t2, ?_, (serUnwrapped cl, fullLines t1) :: doc, ?_, ?_, fun p hp => ?_⟩
      · unfold recurText
        rw [h1, h2]
        rfl
      · rw [fullLines_append (n := '\n') rfl (serText_last hr h1), d1, List.flatMap_cons]
      · rw [List.map_cons, List.map_cons, d2]
      · rcases List.mem_cons.1 hp with rfl | hp
        · exact ⟨hf, hok⟩
        · exact d3 p hp
  obtain ⟨txt, h, doc, d1, d2, d3⟩ := key
  refine ⟨txt, h, ?_⟩
  rw [unfold_fullLines, d1, unfold_doc doc d3, d2]

example : recurText (.width .chars 5) [⟨"A".toList, [], "bc".toList⟩, ⟨"D".toList, [], "efgh".toList⟩] =
    .ok "A:bc\r\r\n \nD:efg\r\n h\r\n".toList := by decide +kernel

/-- C85: with a width of one the lines run into each other. -/
theorem C85_width_one_fails : ∃ txt,
    recurText (.width .chars 1) [⟨"A".toList, [], "b".toList⟩, ⟨"D".toList, [], "e".toList⟩] = .ok txt ∧
    unfoldLines (stringToLines txt) = Gen.done ["A:bD:e".toList] := ⟨_, rfl, by decide +kernel⟩

end Ics
