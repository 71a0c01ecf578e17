import Verif.Py.Calendar
import Mathlib.Order.Basic
import Mathlib.Tactic.ByContra

namespace Ics

/-- Month and day are inside the month, and count back to the day of the year. -/
theorem dayOfYear_spec (leap : Bool) : ∀ n : Nat, n < (if leap then 366 else 365) →
    1 ≤ (dayOfYear leap n).1 ∧ (dayOfYear leap n).1 ≤ 12 ∧ 1 ≤ (dayOfYear leap n).2 ∧
    (dayOfYear leap n).2 ≤ daysInMonth leap (dayOfYear leap n).1 ∧
    daysBeforeMonth leap (dayOfYear leap n).1 + (dayOfYear leap n).2 = n + 1 := by
  cases leap
  · simp only [Bool.false_eq_true, if_false]; decide +kernel
  · simp only [if_true]; decide +kernel

theorem ord2ymd_spec (n : Nat) (hn : 1 ≤ n) :
    1 ≤ (ord2ymd n).1 ∧ 1 ≤ (ord2ymd n).2.1 ∧ (ord2ymd n).2.1 ≤ 12 ∧ 1 ≤ (ord2ymd n).2.2 ∧
    (ord2ymd n).2.2 ≤ daysInMonth (isLeap (ord2ymd n).1) (ord2ymd n).2.1 ∧
    ymd2ord (ord2ymd n).1 (ord2ymd n).2.1 (ord2ymd n).2.2 = n ∧
    (n ≤ 3652059 → (ord2ymd n).1 ≤ 9999) := by
  generalize ha : (n - 1) / 146097 = a
  generalize hb : (n - 1) % 146097 / 36524 = b
  generalize hc : (n - 1) % 146097 % 36524 / 1461 = c
  generalize hd : (n - 1) % 146097 % 36524 % 1461 / 365 = d
  generalize hr : (n - 1) % 146097 % 36524 % 1461 % 365 = r
  have hn' : n = 146097 * a + 36524 * b + 1461 * c + 365 * d + r + 1 := by omega
  have hb4 : b ≤ 4 := by omega
  have hc24 : c ≤ 24 := by omega
  have hd4 : d ≤ 4 := by omega
  have hr1 : r < 365 := by omega
  by_cases hsp : d = 4 ∨ b = 4
  · have e : ord2ymd n = (400 * a + 100 * b + 4 * c + d, 12, 31) := by
      simp only [ord2ymd, ha, hb, hc, hd, hr, hsp, if_true]
      congr 1; omega
    rw [e]
    dsimp only
    have hz : r = 0 ∧ (b = 4 → c = 0 ∧ d = 0) := by omega
    generalize hy : 400 * a + 100 * b + 4 * c + d = y
    have hl : isLeap y = true := by
      simp only [isLeap, Bool.and_eq_true, Bool.or_eq_true, decide_eq_true_eq]
      omega
    rw [hl]
    refine ⟨by omega, by decide, by decide, by decide, by decide, ?_, by omega⟩
    simp only [ymd2ord, daysBeforeYear, hl]
    have e2 : daysBeforeMonth true 12 = 335 := by decide
    rw [e2]
    by_cases h4 : b = 4
    · obtain ⟨rfl, rfl⟩ := hz.2 h4
      have f1 : (y - 1) / 4 = 100 * a + 99 := by omega
      have f2 : (y - 1) / 100 = 4 * a + 3 := by omega
      have f3 : (y - 1) / 400 = a := by omega
      rw [f1, f2, f3]; omega
    · have hd' : d = 4 := by omega
      have f1 : (y - 1) / 4 = 100 * a + 25 * b + c := by omega
      have f2 : (y - 1) / 100 = 4 * a + b := by omega
      have f3 : (y - 1) / 400 = a := by omega
      rw [f1, f2, f3]; omega
  · have e : ord2ymd n = (400 * a + 100 * b + 4 * c + d + 1,
        dayOfYear (d = 3 && (c ≠ 24 || b = 3)) r) := by
      simp only [ord2ymd, ha, hb, hc, hd, hr, hsp, if_false]
      congr 1; omega
    have hl : isLeap (400 * a + 100 * b + 4 * c + d + 1) = (d = 3 && (c ≠ 24 || b = 3)) := by
      rw [Bool.eq_iff_iff]
      simp only [isLeap, Bool.and_eq_true, Bool.or_eq_true, decide_eq_true_eq]
      omega
    rw [e]
    dsimp only
    rw [hl]
    obtain ⟨h1, h2, h3, h4, h5⟩ := dayOfYear_spec (d = 3 && (c ≠ 24 || b = 3)) r
      (by split <;> omega)
    refine ⟨by omega, h1, h2, h3, h4, ?_, by omega⟩
    simp only [ymd2ord, hl, daysBeforeYear, Nat.add_sub_cancel]
    have f1 : (400 * a + 100 * b + 4 * c + d) / 4 = 100 * a + 25 * b + c := by omega
    have f2 : (400 * a + 100 * b + 4 * c + d) / 100 = 4 * a + b := by omega
    have f3 : (400 * a + 100 * b + 4 * c + d) / 400 = a := by omega
    rw [f1, f2, f3]; omega

/-- The days before a year and the next one. -/
theorem daysBeforeYear_succ (y : Nat) (hy : 1 ≤ y) :
    daysBeforeYear (y + 1) = daysBeforeYear y + (if isLeap y then 366 else 365) := by
  have f1 : y / 4 = (y - 1) / 4 + (if y % 4 = 0 then 1 else 0) := by split <;> omega
  have f2 : y / 100 = (y - 1) / 100 + (if y % 100 = 0 then 1 else 0) := by split <;> omega
  have f3 : y / 400 = (y - 1) / 400 + (if y % 400 = 0 then 1 else 0) := by split <;> omega
  have g1 : y % 100 = 0 → y % 4 = 0 := by omega
  have g2 : y % 400 = 0 → y % 100 = 0 := by omega
  have g3 : (y - 1) / 100 ≤ (y - 1) / 4 := by omega
  simp only [daysBeforeYear, Nat.add_sub_cancel, isLeap]
  rw [f1, f2, f3]
  clear f1 f2 f3
  generalize (y - 1) / 4 = p at *
  generalize (y - 1) / 100 = q at *
  generalize (y - 1) / 400 = r at *
  by_cases h4 : y % 4 = 0 <;> by_cases h100 : y % 100 = 0 <;> by_cases h400 : y % 400 = 0 <;>
    simp [h4, h100, h400] at g1 g2 ⊢ <;> omega

theorem monthDay_bound : ∀ leap : Bool, ∀ m : Nat, m < 13 → 1 ≤ m →
    daysBeforeMonth leap m + daysInMonth leap m ≤ (if leap then 366 else 365) := by decide

theorem month_next : ∀ leap : Bool, ∀ m : Nat, m < 13 → 1 ≤ m → ∀ m' : Nat, m' < 13 → m < m' →
    daysBeforeMonth leap m + daysInMonth leap m ≤ daysBeforeMonth leap m' := by decide

theorem daysBeforeYear_mono {y y' : Nat} (hy : 1 ≤ y) (h : y < y') :
    daysBeforeYear y + (if isLeap y then 366 else 365) ≤ daysBeforeYear y' := by
  induction y' with
  | zero => omega
  | succ k ih =>
    rw [daysBeforeYear_succ k (by omega)]
    by_cases hk : y = k
    · subst hk; exact Nat.le_refl _
    · have := ih (by omega); omega

/-- A valid date. -/
def ValidDate (y m d : Nat) : Prop :=
  1 ≤ y ∧ 1 ≤ m ∧ m ≤ 12 ∧ 1 ≤ d ∧ d ≤ daysInMonth (isLeap y) m

theorem ymd2ord_lt {y m d y' m' d' : Nat} (h : ValidDate y m d) (h' : ValidDate y' m' d')
    (hlt : y < y' ∨ (y = y' ∧ (m < m' ∨ (m = m' ∧ d < d')))) : ymd2ord y m d < ymd2ord y' m' d' := by
  obtain ⟨h1, h2, h3, h4, h5⟩ := h
  obtain ⟨h1', h2', h3', h4', h5'⟩ := h'
  simp only [ymd2ord]
  rcases hlt with hlt | ⟨rfl, hlt | ⟨rfl, hlt⟩⟩
  · have a := monthDay_bound (isLeap y) m (by omega) h2
    have b := daysBeforeYear_mono h1 hlt
    omega
  · have := month_next (isLeap y) m (by omega) h2 m' (by omega) hlt
    omega
  · omega

theorem ymd2ord_inj {y m d y' m' d' : Nat} (h : ValidDate y m d) (h' : ValidDate y' m' d')
    (he : ymd2ord y m d = ymd2ord y' m' d') : y = y' ∧ m = m' ∧ d = d' := by
  by_contra hc
  have := ymd2ord_lt h h'
  have := ymd2ord_lt h' h
  omega

theorem ord2ymd_valid {n : Nat} (hn : 1 ≤ n) :
    ValidDate (ord2ymd n).1 (ord2ymd n).2.1 (ord2ymd n).2.2 := by
  obtain ⟨h1, h2, h3, h4, h5, -, -⟩ := ord2ymd_spec n hn
  exact ⟨h1, h2, h3, h4, h5⟩

theorem ord2ymd_ymd2ord {y m d : Nat} (h : ValidDate y m d) : ord2ymd (ymd2ord y m d) = (y, m, d) := by
  have hn : 1 ≤ ymd2ord y m d := by obtain ⟨_, _, _, _, _⟩ := h; simp only [ymd2ord]; omega
  obtain ⟨e1, e2, e3⟩ := ymd2ord_inj (ord2ymd_valid hn) h (ord2ymd_spec _ hn).2.2.2.2.2.1
  exact Prod.ext e1 (Prod.ext e2 e3)

end Ics
