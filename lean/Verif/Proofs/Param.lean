import Verif.Model.Contentline

namespace Ics

theorem unescapeParam_cons {c : Char} (h : c ≠ '^') (s : Str) :
    unescapeParam (c :: s) = (unescapeParam s).map (c :: ·) := by
  rw [unescapeParam.eq_4]
  · intro c' s' hc; exact absurd hc h
  · intro hc; exact absurd hc h

theorem unescapeParam_caret (c : Char) (s : Str) :
    unescapeParam ('^' :: c :: s) =
      if c = 'n' then (unescapeParam s).map ('\n' :: ·)
      else if c = '^' then (unescapeParam s).map ('^' :: ·)
      else if c = '\'' then (unescapeParam s).map ('"' :: ·)
      else .error .parseError := by
  rw [unescapeParam]

theorem escapeParam_nil : escapeParam [] = [] := rfl

theorem escapeParam_cons (c : Char) (s : Str) :
    escapeParam (c :: s) = escapeParamChar c ++ escapeParam s := by
  simp [escapeParam]

theorem unescape_escape (s : Str) :
    unescapeParam (escapeParam s) = .ok (s.filter (· ≠ '\r')) := by
  induction s with
  | nil => simp [escapeParam, unescapeParam]
  | cons c s ih =>
    rw [escapeParam_cons, escapeParamChar]
    split
    · subst_vars; simp [unescapeParam_caret, ih, Except.map]
    split
    · subst_vars; simp [unescapeParam_caret, ih, Except.map]
    split
    · subst_vars; simp [unescapeParam_caret, ih, Except.map]
    split
    · subst_vars; simp [ih]
    · simp [unescapeParam_cons, *, Except.map]

theorem mem_escapeParam {s : Str} {c : Char} (h : c ∈ escapeParam s) :
    c ≠ '"' ∧ c ≠ '\n' ∧ c ≠ '\r' := by
  simp only [escapeParam, List.mem_flatMap] at h
  obtain ⟨a, -, hc⟩ := h
  rw [escapeParamChar] at hc
  split at hc
  · simp at hc; rcases hc with rfl | rfl <;> decide
  split at hc
  · simp at hc; subst hc; decide
  split at hc
  · simp at hc; rcases hc with rfl | rfl <;> decide
  split at hc
  · simp at hc
  · simp at hc; subst hc; exact ⟨by assumption, by assumption, by assumption⟩

/-- Characters other than the four special ones occur in the escaped text iff they do in the text. -/
theorem mem_escapeParam_iff {s : Str} {c : Char} (h1 : c ≠ '"') (h2 : c ≠ '^') (h3 : c ≠ '\n')
    (h4 : c ≠ '\r') (h5 : c ≠ 'n') (h6 : c ≠ '\'') : c ∈ escapeParam s ↔ c ∈ s := by
  simp only [escapeParam, List.mem_flatMap]
  constructor
  · rintro ⟨a, ha, hc⟩
    rw [escapeParamChar] at hc
    split at hc
    · simp_all
    split at hc
    · simp_all
    split at hc
    · simp_all
    split at hc
    · simp_all
    · simp at hc; subst hc; exact ha
  · intro hc
    exact ⟨c, hc, by simp [escapeParamChar, *]⟩

end Ics
