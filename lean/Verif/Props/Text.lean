import Verif.Proofs.Text

/-!
C10–C12: TEXT values.
-/
namespace Ics

/-! ### C10 -/

/-- C10: unescaping an escaped text gives the text back. -/
theorem C10_roundtrip (s : Str) : unescapeText (escapeText s) = .ok s := unescape_escapeText s

/-- C10: the escaped form contains no line break and no `;` or `,` outside an escape sequence. -/
theorem C10_safe (s : Str) : TextGrammar (escapeText s) ∧ '\n' ∉ escapeText s ∧ '\r' ∉ escapeText s :=
  ⟨escape_grammar s, grammar_no_break (escape_grammar s)⟩

/-- C10: different texts have different escaped forms. -/
theorem C10_injective (s t : Str) (h : escapeText s = escapeText t) : s = t := by
  have := congrArg unescapeText h
  rw [unescape_escapeText, unescape_escapeText] at this
  exact Except.ok.inj this

example : escapeText "a\\,b;\r\n".toList = "a\\\\\\,b\\;\\r\\n".toList := by decide +kernel

/-! ### C11 -/

/-- C11: splitting the comma-joined escaped values gives exactly these values, and unescaping them
gives the original texts. -/
theorem C11_roundtrip (vs : List Str) (h : vs ≠ []) :
    splitTextList (joinComma (vs.map escapeText)) = Gen.done (vs.map escapeText) ∧
    (vs.map escapeText).map unescapeText = vs.map .ok := by
  constructor
  · rw [splitTextList_scan, scan_join vs h]
    apply joinComma_no_nl
    intro v hv
    obtain ⟨s, -, rfl⟩ := List.mem_map.1 hv
    exact (C10_safe s).2.1
  · rw [List.map_map]; exact List.map_congr_left fun s _ => unescape_escapeText s

example : ["a,b".toList, [], "c\\".toList] ≠ [] := by simp
example : splitTextList "a\\,b,,c\\\\".toList = Gen.done ["a\\,b".toList, [], "c\\\\".toList] := by decide +kernel

/-- C11: whatever the text, splitting either fails with `ValueError` or loses nothing: joining the
pieces with commas gives back the text. -/
theorem C11_split_lossless (s : Str) :
    ((splitTextList s).err = none → joinComma (splitTextList s).items = s) ∧
    (∀ e, (splitTextList s).err = some e → e = .valueError) := by
  obtain ⟨g, gs, hg⟩ := splitComma_ne s
  rw [splitTextList, hg]
  obtain ⟨h1, h2, -⟩ := splitTextFrom_join gs g
  refine ⟨fun h => ?_, h2⟩
  rw [h1 h, ← hg, joinComma_split]

example : (splitTextList "a,b\\\\,c".toList).err = none := by decide +kernel
example : (splitTextList "a,b\\".toList).err = some .valueError := by decide +kernel

/-- The empty list is the exception in C11: it is written like the list of one empty text. -/
theorem C11_empty : splitTextList (joinComma []) = Gen.done [[]] := by decide +kernel

/-! ### C12 -/

/-- C12: unescaping succeeds exactly on the texts of the grammar. -/
theorem C12_iff_grammar (s : Str) : (∃ t, unescapeText s = .ok t) ↔ TextGrammar s :=
  (unescape_iff s.length s (Nat.le_refl _)).1

/-- C12: and otherwise raises `ValueError`. -/
theorem C12_error (s : Str) (e : PyErr) (h : unescapeText s = .error e) : e = .valueError :=
  (unescape_iff s.length s (Nat.le_refl _)).2 e h

example : TextGrammar "a\\N\\,".toList :=
  .plain 'a' _ (by decide) (.esc 'N' _ (by decide) (.esc ',' _ (by decide) .nil))
example : unescapeText "a\\x".toList = .error .valueError := by decide +kernel

end Ics
