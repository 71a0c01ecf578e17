import Verif.Proofs.Generic

/-
C18: booleans, integers and binary data round trip.
-/
set_option exponentiation.threshold 5000

namespace Ics

/-- C18, booleans. -/
theorem C18_bool (b : Bool) : boolParse (boolSerialize b) = .ok b := by cases b <;> decide

/-- C18, integers: a number of at most 4300 digits (Python's limit) is written and read back. -/
theorem C18_int (n : Int) (h : n.natAbs < 10 ^ 4300) :
    ∃ s, intSerialize n = .ok s ∧ intParse s = .ok n := by
  have hl : (natStr n.natAbs).length ≤ maxStrDigits := natStr_length (by decide) h
  have hb := intBody_digits (natStr_digits n.natAbs) hl
  have hd := natStr_digit (n := n.natAbs)
  have hne := natStr_ne_nil n.natAbs
  refine ⟨_, by simp only [intSerialize]; rw [if_neg (by omega)], ?_⟩
  generalize natStr n.natAbs = s at *
  by_cases hn : n < 0
  · rw [if_pos hn, intParse, strip_id]
    · simp only [hb]; congr 1; omega
    · intro c hc
      rcases List.mem_cons.1 hc with rfl | hc
      · decide
      · exact isDigit_not_space (hd c hc)
  · rw [if_neg hn, intParse, strip_id (fun c hc => isDigit_not_space (hd c hc))]
    have : (n.natAbs : Int) = n := by omega
    rw [this] at hb
    cases s with
    | nil => exact absurd rfl hne
    | cons c s =>
      have h1 : c ≠ '-' := by intro he; exact absurd (hd c (by simp)) (by rw [he]; decide)
      have h2 : c ≠ '+' := by intro he; exact absurd (hd c (by simp)) (by rw [he]; decide)
      split
      · rename_i h; exact absurd (List.cons.inj h).1 h1
      · rename_i h; exact absurd (List.cons.inj h).1 h2
      · exact hb

/-- C18, integers: larger numbers are refused when written, so nothing is written wrongly. -/
theorem C18_int_limit (n : Int) (h : 10 ^ 4300 ≤ n.natAbs) : intSerialize n = .error .valueError := by
  have hl : maxStrDigits < (natStr n.natAbs).length := by
    refine Nat.lt_of_not_le fun hc => ?_
    have := (Nat.length_toDigits_le_iff (b := 10) (n := n.natAbs) (k := maxStrDigits) (by decide)
      (by decide)).1 (by simpa [natStr] using hc)
    exact absurd this (Nat.not_lt.2 h)
  simp only [intSerialize]
  rw [if_pos hl]

example : intSerialize (-1234) = .ok "-1234".toList ∧ intParse "-1234".toList = .ok (-1234) ∧
    (-1234 : Int).natAbs < 10 ^ 4300 := by
  refine ⟨by decide +kernel, by decide +kernel, ?_⟩
  calc (-1234 : Int).natAbs < 10 ^ 4 := by decide
    _ ≤ 10 ^ 4300 := Nat.pow_le_pow_right (by decide) (by decide)

/-- C18, binary data. -/
theorem C18_binary (x : List (Fin 256)) : b64decode (b64encode x) = .ok x := by
  rw [b64decode, if_pos (b64_loop x).2, (b64_loop x).1]

example : b64encode [104, 105] = "aGk=".toList := by decide +kernel

end Ics
