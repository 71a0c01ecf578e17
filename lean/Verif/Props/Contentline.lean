import Verif.Proofs.Tree
import Verif.Proofs.Checks

/-!
C01–C03: parameter escaping, single content lines.
-/
namespace Ics

/-! ### C01 -/

/-- C01: unescaping an escaped parameter value gives the value without its carriage returns. -/
theorem C01_unescape_escape (v : Str) : unescapeParam (escapeParam v) = .ok (v.filter (· ≠ '\r')) :=
  unescape_escape v

/-- C01: so it is the value itself when there is none. -/
theorem C01_roundtrip (v : Str) (h : '\r' ∉ v) : unescapeParam (escapeParam v) = .ok v := by
  rw [unescape_escape, List.filter_eq_self.2]
  intro c hc; simp only [ne_eq, decide_eq_true_eq]; rintro rfl; exact h hc

example : '\r' ∉ "a\"b^c\n^'^n:;,".toList := by decide +kernel
example : escapeParam "a\"^\n\r".toList = "a^'^^^n".toList := by decide +kernel

/-- C01: the escaped form has no double quote, line feed or carriage return. -/
theorem C01_safe (v : Str) (c : Char) (h : c ∈ escapeParam v) : c ≠ '"' ∧ c ≠ '\n' ∧ c ≠ '\r' :=
  mem_escapeParam h

example : '^' ∈ escapeParam "\"\n\r".toList := by decide +kernel

/-! ### C02 -/

/-- C02: parsing the serialization of a writable line gives an equal line. -/
theorem C02_roundtrip (cl : ContentLine) (h : WritableLine cl) :
    ∃ cl', parseLine (serUnwrapped cl) = .ok cl' ∧ cl'.unquote = cl.unquote :=
  ⟨normLine cl, writable_parse h, unquote_norm h⟩

/-- A line with quoted and unquoted values, delimiters, carets, quotes and empty values. -/
def C02_sample : ContentLine :=
  ⟨"X-FOO".toList,
   [("A".toList, [⟨false, "x;y".toList⟩, ⟨false, []⟩, ⟨true, []⟩]), ("b".toList, [⟨false, "^\"\n".toList⟩])],
   ":;,\"=\r\n".toList⟩

example : WritableLine C02_sample := .of_check (by decide +kernel)

/-- C02: if some parameter has no value, or its last value is unquoted and empty, the serialization
cannot be parsed. -/
theorem C02_unreadable (cl : ContentLine) (hname : ∀ c ∈ cl.name, c ≠ ':' ∧ c ≠ ';')
    (hp : ∀ p ∈ cl.params, ∀ c ∈ p.1, c ≠ '=' ∧ c ≠ ':' ∧ c ≠ ';')
    (hbad : ∃ p ∈ cl.params, p.2 = [] ∨ ∃ init, p.2 = init ++ [⟨false, []⟩]) :
    parseLine (serUnwrapped cl) = .error .parseError := by
  apply parseLine_ser_bad
  · intro c hc; have := hname c hc; simp [isDelim, this.1, this.2]
  · intro p hp'
    refine ⟨fun hc => (hp p hp' _ hc).1 rfl, fun c hc => ?_⟩
    have := hp p hp' c hc; simp [isDelim, this.2.1, this.2.2]
  · obtain ⟨p, hp', hb⟩ := hbad
    refine ⟨p, hp', ?_⟩
    rintro ⟨ws, v, h1, h2⟩
    rcases hb with h | ⟨ini, h⟩
    · rw [h] at h1; simp at h1
    · rw [h] at h1
      have := (List.append_inj' h1 rfl).2
      simp only [List.cons.injEq, and_true] at this
      rw [← this] at h2
      exact h2 (by decide +kernel)

example : ∃ p ∈ [("A".toList, [(⟨false, "x".toList⟩ : PVal), ⟨false, []⟩])], p.2 = [] ∨
    ∃ init, p.2 = init ++ [⟨false, []⟩] := ⟨_, List.mem_singleton.2 rfl, Or.inr ⟨[⟨false, "x".toList⟩], rfl⟩⟩

/-! ### C03 -/

/-- C03: whatever the text, the line parser returns a line or raises `ParseError`.  (The model can
also produce `IndexError`, `ValueError` or run out of fuel.) -/
theorem C03_only_parse_error (line : Str) :
    (∃ cl, parseLine line = .ok cl) ∨ parseLine line = .error .parseError := by
  cases h : parseLine line with
  | ok cl => exact Or.inl ⟨cl, rfl⟩
  | error e => exact Or.inr (by rw [parseLine_err h])

example : parseLine "A;B=\"".toList = .error .parseError := by decide +kernel
example : parseLine "A;B=\"^n\",c:d".toList =
    .ok ⟨['A'], [(['B'], [⟨true, ['\n']⟩, ⟨false, ['c']⟩])], ['d']⟩ := by decide +kernel

/-- C03 for whole documents: parsing any text into containers ends normally or with `ParseError`,
or with `ValueError` if the text contains a `BEGIN:` line without a name. -/
theorem C03_document (txt : Str) (e : PyErr) (h : (stringToContainers txt).err = some e) :
    e = .parseError ∨ (e = .valueError ∧
      ∃ cl ∈ (linesToContentlines (unfoldLines (stringToLines txt))).items,
        cl.name = "BEGIN".toList ∧ cl.value = []) := by
  obtain ⟨-, -, h3⟩ := toContainersF_spec _ (linesToContentlines (unfoldLines (stringToLines txt))).err
    (linesToContentlines (unfoldLines (stringToLines txt))).items (Nat.le_refl _)
  rcases h3 e h with h | h | h
  · exact Or.inl h
  · exact Or.inr h
  · rcases parseEach_err _ _ _ h with h | h
    · exact Or.inl h
    · exact Or.inl (unfoldFrom_err _ _ _ h)

/-- The exception is real: a container without a name makes the parser raise `ValueError`. -/
theorem C03_document_value_error :
    (stringToContainers "BEGIN:\nEND:\n".toList).err = some .valueError := by decide +kernel

example : (stringToContainers "BEGIN:A\nEND:B\n".toList).err = some .parseError := by decide +kernel

end Ics
