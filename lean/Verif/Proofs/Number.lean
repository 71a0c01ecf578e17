import Verif.Py.Number
import Verif.Spec.Duration

/-
Facts on decimal digits.
-/
namespace Ics

theorem isDigit_eq (c : Char) : isDigit c = c.isDigit := by
  simp only [isDigit, Char.isDigit, Char.le_def]
  rw [Bool.eq_iff_iff]; simp

theorem natStr_ne_nil (n : Nat) : natStr n ≠ [] := Nat.toDigits_ne_nil

theorem natStr_digit {n : Nat} : ∀ c ∈ natStr n, isDigit c = true := by
  intro c hc
  rw [isDigit_eq]
  exact Nat.isDigit_of_mem_toDigits (by decide) (by decide) hc

theorem natStr_digits (n : Nat) : Digits (natStr n) n := by
  refine ⟨natStr_ne_nil n, ?_, ?_⟩
  · intro c hc
    have := natStr_digit c hc
    simpa [isDigit] using this
  · have h := Nat.ofDigitChars_ten_toDigits (n := n)
    rw [Nat.ofDigitChars_eq_foldl] at h
    exact h.symm

theorem natStr_length {n k : Nat} (hk : 0 < k) (h : n < 10 ^ k) : (natStr n).length ≤ k :=
  (Nat.length_toDigits_le_iff (by decide) hk).2 h

theorem Digits.value {s : Str} {n : Nat} (h : Digits s n) (hl : s.length ≤ maxStrDigits) :
    intOfDigits s = .ok (n : Int) := by
  obtain ⟨h1, -, rfl⟩ := h
  have : ¬ (s = [] ∨ maxStrDigits < s.length) := by
    rintro (h | h)
    · exact h1 h
    · omega
  rw [intOfDigits, if_neg this, Nat.ofDigitChars_eq_foldl]; rfl

theorem Digits.isDigit {s : Str} {n : Nat} (h : Digits s n) : ∀ c ∈ s, isDigit c = true := by
  intro c hc
  simpa [Ics.isDigit] using h.2.1 c hc

theorem takeWhile_digits {s : Str} (h : ∀ c ∈ s, isDigit c = true) {u : Char}
    (hu : isDigit u = false) (t : Str) :
    (s ++ u :: t).takeWhile isDigit = s ∧ (s ++ u :: t).dropWhile isDigit = u :: t := by
  induction s with
  | nil => simp [List.takeWhile, List.dropWhile, hu]
  | cons c s ih =>
    have hc := h c (by simp)
    have := ih (fun c hc => h c (by simp [hc]))
    simp [List.takeWhile, List.dropWhile, hc, this.1, this.2]

end Ics
