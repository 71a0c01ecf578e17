import Verif.Model.Generic
import Verif.Proofs.Number

/-
Lemmas about booleans, integers and base64.
-/
namespace Ics

theorem underscoresOk_digits {s : Str} (h : ∀ c ∈ s, isDigit c = true) : underscoresOk s = true := by
  induction s with
  | nil => rfl
  | cons c s ih =>
    have hc := h c (by simp)
    cases s with
    | nil => simpa [underscoresOk] using hc
    | cons d s =>
      have hd := h d (by simp)
      have := ih (fun c hc => h c (List.mem_cons_of_mem _ hc))
      simp [underscoresOk, hc, hd, this]

theorem intBody_digits {s : Str} {n : Nat} (h : Digits s n) (hl : s.length ≤ maxStrDigits) :
    intBody s = .ok (n : Int) := by
  have hd := h.isDigit
  have hu := underscoresOk_digits hd
  have hf : s.filter (· ≠ '_') = s := by
    rw [List.filter_eq_self]
    intro c hc
    have : c ≠ '_' := by
      rintro rfl
      exact absurd (hd _ hc) (by decide)
    simpa using this
  cases s with
  | nil => exact absurd rfl h.1
  | cons c s =>
    simp only [intBody, hu, hd c (by simp), Bool.and_self, if_true, hf]
    exact h.value hl

theorem strip_id {s : Str} (h : ∀ c ∈ s, isCSpace c = false) :
    ((s.dropWhile isCSpace).reverse.dropWhile isCSpace).reverse = s := by
  have key : ∀ l : Str, (∀ c ∈ l, isCSpace c = false) → l.dropWhile isCSpace = l := by
    intro l hl
    cases l with
    | nil => rfl
    | cons c l => simp [List.dropWhile, hl c (by simp)]
  rw [key s h, key _ (by simpa using h), List.reverse_reverse]

theorem isDigit_not_space {c : Char} (h : isDigit c = true) : isCSpace c = false := by
  cases hc : isCSpace c with
  | false => rfl
  | true =>
    simp only [isCSpace, Bool.or_eq_true, decide_eq_true_eq] at hc
    rcases hc with ((((rfl | rfl) | rfl) | rfl) | rfl) | rfl <;> exact absurd h (by decide)

theorem b64_char : ∀ n : Nat, n < 64 → b64Val (b64Char n) = some n ∧ b64Char n ≠ '=' ∧
    (b64Char n).toNat < 128 := by decide +kernel

theorem b64Loop_0 {n : Nat} (h : n < 64) (l p : Nat) (s : Str) :
    b64Loop 0 l p (b64Char n :: s) = b64Loop 1 n 0 s := by
  obtain ⟨h1, h2, -⟩ := b64_char n h
  rw [b64Loop, if_neg h2, h1]; rfl

theorem b64Loop_1 {n : Nat} (h : n < 64) (l p : Nat) (s : Str) :
    b64Loop 1 l p (b64Char n :: s) =
      (b64Loop 2 (n % 16) 0 s).map (Fin.ofNat 256 (l * 4 + n / 16) :: ·) := by
  obtain ⟨h1, h2, -⟩ := b64_char n h
  rw [b64Loop, if_neg h2, h1]; rfl

theorem b64Loop_2 {n : Nat} (h : n < 64) (l p : Nat) (s : Str) :
    b64Loop 2 l p (b64Char n :: s) =
      (b64Loop 3 (n % 4) 0 s).map (Fin.ofNat 256 (l * 16 + n / 4) :: ·) := by
  obtain ⟨h1, h2, -⟩ := b64_char n h
  rw [b64Loop, if_neg h2, h1]; rfl

theorem b64Loop_3 {n : Nat} (h : n < 64) (l p : Nat) (s : Str) :
    b64Loop 3 l p (b64Char n :: s) =
      (b64Loop 0 0 0 s).map (Fin.ofNat 256 (l * 64 + n) :: ·) := by
  obtain ⟨h1, h2, -⟩ := b64_char n h
  rw [b64Loop, if_neg h2, h1]; rfl

theorem fin_eq {n : Nat} (a : Fin 256) (h : n = a.val) : Fin.ofNat 256 n = a := by
  apply Fin.ext
  simp [Fin.ofNat, h]

theorem b64_loop (x : List (Fin 256)) : b64Loop 0 0 0 (b64encode x) = .ok x ∧
    (b64encode x).all (fun c => c.toNat < 128) = true := by
  induction x using b64encode.induct with
  | case1 => exact ⟨rfl, rfl⟩
  | case2 a =>
    have ha := a.isLt
    refine ⟨?_, ?_⟩
    · rw [b64encode, b64Loop_0 (by omega)]
      rw [b64Loop_1 (by omega)]
      rw [fin_eq a (by omega)]
      rfl
    · simp only [b64encode, List.all_cons, List.all_nil, (b64_char _ (show a.val / 4 < 64 by omega)).2.2,
        (b64_char _ (show a.val % 4 * 16 < 64 by omega)).2.2]
      decide
  | case3 a b =>
    have ha := a.isLt
    have hb := b.isLt
    refine ⟨?_, ?_⟩
    · rw [b64encode, b64Loop_0 (by omega)]
      rw [b64Loop_1 (by omega)]
      rw [b64Loop_2 (by omega)]
      rw [fin_eq a (by omega), fin_eq b (by omega)]
      rfl
    · simp only [b64encode, List.all_cons, List.all_nil, (b64_char _ (show a.val / 4 < 64 by omega)).2.2,
        (b64_char _ (show a.val % 4 * 16 + b.val / 16 < 64 by omega)).2.2,
        (b64_char _ (show b.val % 16 * 4 < 64 by omega)).2.2]
      decide
  | case4 a b c l ih =>
    have ha := a.isLt
    have hb := b.isLt
    have hc := c.isLt
    refine ⟨?_, ?_⟩
    · rw [b64encode, b64Loop_0 (by omega)]
      rw [b64Loop_1 (by omega)]
      rw [b64Loop_2 (by omega)]
      rw [b64Loop_3 (by omega)]
      rw [fin_eq a (by omega), fin_eq b (by omega), fin_eq c (by omega), ih.1]
      rfl
    · simp only [b64encode, List.all_cons, ih.2, (b64_char _ (show a.val / 4 < 64 by omega)).2.2,
        (b64_char _ (show a.val % 4 * 16 + b.val / 16 < 64 by omega)).2.2,
        (b64_char _ (show b.val % 16 * 4 + c.val / 64 < 64 by omega)).2.2,
        (b64_char _ (show c.val % 64 < 64 by omega)).2.2]
      decide

end Ics
