import Verif.Proofs.Duration

/-
C13 (durations round trip), C14 (written durations and the RFC grammar), C15 (UTC offsets).
A `timedelta` is its number of microseconds; `tdMin` and `tdMax` are `timedelta.min` and
`timedelta.max`.
-/
namespace Ics

/-! ### C13 -/

/-- C13: a `timedelta` of `s` whole seconds is read back as it was. -/
theorem C13_roundtrip (s : Int) (h : tdMin ≤ s * 1000000 ∧ s * 1000000 ≤ tdMax) :
    durationParse (durationSerialize (s * 1000000)) = .ok (s * 1000000) := by
  rw [durationSerialize_parse h, Int.mul_tdiv_cancel _ (by decide)]

/-- C13: any other `timedelta` is read back rounded towards zero to whole seconds
(`Int.tdiv` is division rounding towards zero). -/
theorem C13_truncates (us : Int) (h : tdMin ≤ us ∧ us ≤ tdMax) :
    durationParse (durationSerialize us) = .ok (us.tdiv 1000000 * 1000000) :=
  durationSerialize_parse h

example : durationSerialize (-90061000000) = "-P1DT1H1M1S".toList ∧
    tdMin ≤ -90061 * 1000000 ∧ -90061 * 1000000 ≤ tdMax := by decide +kernel
example : durationParse (durationSerialize (-1500000)) = .ok (-1000000) := by decide +kernel

/-! ### C14 -/

/-- C14, partial: the text written for a duration is a `dur-value` of RFC 5545 (with the right
value) exactly if it does not have hours and seconds but no minutes.  Missing: the remaining
durations, for which the claim is false (`C14_fails`). -/
theorem C14_partial (us : Int) :
    let s := us.natAbs / 1000000
    (¬ (s % 86400 / 3600 ≠ 0 ∧ s % 3600 / 60 = 0 ∧ s % 60 ≠ 0) →
      DurValue (durationSerialize us) (us.tdiv 1000000)) ∧
    ((s % 86400 / 3600 ≠ 0 ∧ s % 3600 / 60 = 0 ∧ s % 60 ≠ 0) →
      ∀ v, ¬ DurValue (durationSerialize us) v) := by
  intro s
  have conv : (s % 86400 / 3600 ≠ 0 ∧ s % 3600 / 60 = 0 ∧ s % 60 ≠ 0) ↔
      HourSecondOnly (s % 86400) := by
    unfold HourSecondOnly
    have e1 : s % 86400 % 3600 = s % 3600 := by omega
    have e2 : s % 86400 % 60 = s % 60 := by omega
    rw [e1, e2]
  rw [durationSerialize_eq, conv]
  constructor
  · intro hg
    have := durRes_grammar hg
    split
    · rename_i hp
      have e : us.tdiv 1000000 = (us.natAbs / 1000000 : Nat) := by
        rw [Int.tdiv_eq_ediv_of_nonneg hp]; omega
      rw [e]; exact .pos this
    · rename_i hp
      have e : us.tdiv 1000000 = -(us.natAbs / 1000000 : Nat) := by
        have h3 : us = -(-us) := by omega
        have h4 : (-us).tdiv 1000000 = (-us) / 1000000 := Int.tdiv_eq_ediv_of_nonneg (by omega)
        rw [h3, Int.neg_tdiv, h4]; omega
      rw [e]; exact .neg this
  · intro hb v hv
    have := durRes_not_grammar hb
    split at hv
    · cases hv with
      | pos h => exact this _ h
    · cases hv with
      | neg h => exact this _ h

/-- C14 is false: one hour and five seconds is written as `PT1H5S`, which is not a `dur-value`. -/
theorem C14_fails : durationSerialize 3605000000 = "PT1H5S".toList ∧
    ∀ v, ¬ DurValue (durationSerialize 3605000000) v :=
  ⟨by decide +kernel, (C14_partial 3605000000).2 (by decide +kernel)⟩

/-- C14, the reading direction: every `dur-value` of RFC 5545 is read as the duration it stands for
(`OverflowError` if that is no `timedelta`); the length bound is Python's limit on the digits of a
number. -/
theorem C14_reads_grammar (t : Str) (v : Int) (h : DurValue t v) (hl : t.length ≤ 4300) :
    durationParse t =
      if tdMin ≤ v * 1000000 ∧ v * 1000000 ≤ tdMax then .ok (v * 1000000)
      else .error .overflowError :=
  durationParse_durValue h hl

example : DurValue "-P2DT30M".toList (-174600) :=
  .neg (.dayTime (s := ['2']) (n := 2) ⟨by decide, by decide, by decide⟩
    (.minute (.alone (s := ['3', '0']) (n := 30) ⟨by decide, by decide, by decide⟩)))
example : durationParse "-P2DT30M".toList = .ok (-174600 * 1000000) := by decide +kernel

/-! ### C15 -/

/-- C15: a UTC offset of `o` whole seconds is read back as it was. -/
theorem C15_roundtrip (o : Int) (h : -360000 < o ∧ o < 360000) :
    utcOffsetParse (utcOffsetSerialize (o * 1000000)) = .ok (o * 1000000) :=
  utcOffset_roundtrip h

/-- The two decimal digits of a number below 100. -/
def twoDigitText (n : Nat) : Str := [Char.ofNat (48 + n / 10), Char.ofNat (48 + n % 10)]

/-- C15: what is written is the sign, hours, minutes and, if not zero, the seconds. -/
theorem C15_form (o : Int) (h : -360000 < o ∧ o < 360000) :
    let a := o.natAbs
    utcOffsetSerialize (o * 1000000) =
      (if o < 0 then '-' else '+') :: (twoDigitText (a / 3600) ++ twoDigitText (a % 3600 / 60) ++
        (if a % 60 = 0 then [] else twoDigitText (a % 60))) := by
  intro a
  have key : ∀ n : Nat, n < 100 → pad2 n = twoDigitText n := by decide +kernel
  have e1 : (o * 1000000).natAbs / 3600000000 = a / 3600 := by omega
  have e2 : (o * 1000000).natAbs % 3600000000 / 60000000 = a % 3600 / 60 := by omega
  have e3 : (o * 1000000).natAbs % 3600000000 % 60000000 / 1000000 = a % 60 := by omega
  have e4 : (o * 1000000).natAbs % 3600000000 % 60000000 ≠ 0 ↔ ¬ a % 60 = 0 := by omega
  simp only [utcOffsetSerialize]
  rw [e1, e2, e3, key _ (by omega), key _ (by omega), key _ (by omega)]
  simp only [e4, ite_not]
  have e5 : o * 1000000 < 0 ↔ o < 0 := by omega
  simp only [e5]

example : utcOffsetSerialize (-12600 * 1000000) = "-0330".toList := by decide +kernel

end Ics
