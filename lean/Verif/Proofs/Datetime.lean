import Verif.Model.Datetime
import Verif.Proofs.Calendar
import Verif.Proofs.Duration

namespace Ics

/-- The four digits of a number below 10000. -/
def d4 (y : Nat) : Str :=
  [Nat.digitChar (y / 1000), Nat.digitChar (y / 100 % 10), Nat.digitChar (y / 10 % 10),
    Nat.digitChar (y % 10)]

theorem natStr_d4 {y : Nat} (h1 : 1000 ≤ y) (h2 : y ≤ 9999) : natStr y = d4 y := by
  have e : ∀ n, natStr n = if n < 10 then [Nat.digitChar n]
      else natStr (n / 10) ++ [Nat.digitChar (n % 10)] := fun n => Nat.toDigits_eq_if (by decide)
  rw [e, if_neg (by omega), e, if_neg (by omega), e, if_neg (by omega), e, if_pos (by omega)]
  have a1 : y / 10 / 10 / 10 = y / 1000 := by omega
  have a2 : y / 10 / 10 % 10 = y / 100 % 10 := by omega
  rw [a1, a2]
  simp [d4]

theorem yearStr_pad {y : Nat} (h2 : y ≤ 9999) : yearStr true y = d4 y := by
  have e : ∀ n, natStr n = if n < 10 then [Nat.digitChar n]
      else natStr (n / 10) ++ [Nat.digitChar (n % 10)] := fun n => Nat.toDigits_eq_if (by decide)
  simp only [yearStr, if_true]
  by_cases h : 1000 ≤ y
  · rw [natStr_d4 h h2]; simp [d4]
  · by_cases h3 : y < 10
    · have a : natStr y = [Nat.digitChar y] := by rw [e, if_pos h3]
      have a1 : y / 1000 = 0 := by omega
      have a2 : y / 100 % 10 = 0 := by omega
      have a3 : y / 10 % 10 = 0 := by omega
      have a4 : y % 10 = y := by omega
      rw [a]; simp [d4, a1, a2, a3, a4, List.replicate]
    · by_cases h4 : y < 100
      · have a : natStr y = [Nat.digitChar (y / 10), Nat.digitChar (y % 10)] := by
          rw [e, if_neg h3, e, if_pos (by omega)]; rfl
        have a1 : y / 1000 = 0 := by omega
        have a2 : y / 100 % 10 = 0 := by omega
        have a3 : y / 10 % 10 = y / 10 := by omega
        rw [a]; simp [d4, a1, a2, a3, List.replicate]
      · have a : natStr y = [Nat.digitChar (y / 100), Nat.digitChar (y / 10 % 10),
            Nat.digitChar (y % 10)] := by
          rw [e, if_neg h3, e, if_neg (by omega), e, if_pos (by omega)]
          have : y / 10 / 10 = y / 100 := by omega
          rw [this]; rfl
        have a1 : y / 1000 = 0 := by omega
        have a2 : y / 100 % 10 = y / 100 := by omega
        rw [a]; simp [d4, a1, a2, List.replicate]

theorem yearStr_d4 {pad : Bool} {y : Nat} (h1 : pad = true ∨ 1000 ≤ y) (h2 : y ≤ 9999) :
    yearStr pad y = d4 y := by
  cases pad
  · simp only [yearStr, Bool.false_eq_true, if_false]
    exact natStr_d4 (by simpa using h1) h2
  · exact yearStr_pad h2

theorem num2_pad2 : ∀ n : Nat, n < 100 →
    num2 (Nat.digitChar (n / 10)) (Nat.digitChar (n % 10)) = some n := by decide +kernel

theorem yearField_d4 {y : Nat} (h : y ≤ 9999) :
    yearField (Nat.digitChar (y / 1000)) (Nat.digitChar (y / 100 % 10))
      (Nat.digitChar (y / 10 % 10)) (Nat.digitChar (y % 10)) = some y := by
  have h1 := num2_pad2 (y / 100) (by omega)
  have h2 := num2_pad2 (y % 100) (by omega)
  have a1 : y / 100 / 10 = y / 1000 := by omega
  have a2 : y % 100 / 10 = y / 10 % 10 := by omega
  have a3 : y % 100 % 10 = y % 10 := by omega
  rw [a1] at h1
  rw [a2, a3] at h2
  simp only [yearField, h1, h2]
  congr 1; omega

/-- Fields of a valid date-time. -/
def Fields.Ok (f : Fields) : Prop :=
  1 ≤ f.year ∧ f.year ≤ 9999 ∧ 1 ≤ f.month ∧ f.month ≤ 12 ∧ 1 ≤ f.day ∧
  f.day ≤ daysInMonth (isLeap f.year) f.month ∧ f.hour < 24 ∧ f.minute < 60 ∧ f.second < 60

theorem daysInMonth_le : ∀ leap : Bool, ∀ m : Nat, m ≤ 12 → daysInMonth leap m ≤ 31 := by decide

theorem digitChar_ne {n : Nat} (h : n < 10) {c : Char} (hc : isDigit c = false) :
    Nat.digitChar n ≠ c := by
  rintro rfl
  rw [isDigit_digitChar n h] at hc
  exact absurd hc (by decide)

theorem strptime_datetimeStr {pad : Bool} {f : Fields} (hf : f.Ok) (hy : pad = true ∨ 1000 ≤ f.year) :
    strptimeFields (datetimeStr pad f) = some f ∧ (datetimeStr pad f).length = 15 ∧
    (∀ c ∈ datetimeStr pad f, isDigit c = true ∨ c = 'T') := by
  obtain ⟨h1, h2, h3, h4, h5, h6, h7, h8, h9⟩ := hf
  have hd := daysInMonth_le (isLeap f.year) f.month h4
  simp only [datetimeStr, dateStr, yearStr_d4 hy h2, d4, (pad2_spec f.month (by omega)).1,
    (pad2_spec f.day (by omega)).1, (pad2_spec f.hour (by omega)).1,
    (pad2_spec f.minute (by omega)).1, (pad2_spec f.second (by omega)).1, List.cons_append,
    List.nil_append]
  refine ⟨?_, rfl, ?_⟩
  · simp only [strptimeFields, yearField_d4 h2, monthField, dayField, num2_pad2 f.month (by omega),
      num2_pad2 f.day (by omega), Option.filter, digitChar_ne (n := f.day / 10) (c := ' ')
        (by omega) (by decide), if_false, true_or, if_true, strptimeTime, hourField, minuteField,
      secondField, num2_pad2 f.hour (by omega), num2_pad2 f.minute (by omega),
      num2_pad2 f.second (by omega)]
    have e1 : 1 ≤ f.month ∧ f.month ≤ 12 := ⟨h3, h4⟩
    have e2 : 1 ≤ f.day ∧ f.day ≤ 31 := ⟨h5, by omega⟩
    have e3 : f.hour ≤ 23 := by omega
    have e4 : f.minute ≤ 59 := by omega
    have e5 : f.second ≤ 61 := by omega
    simp [e1, e2, e3, e4, e5]
  · intro c hc
    simp only [List.mem_cons, List.not_mem_nil, or_false] at hc
    rcases hc with h | h | h | h | h | h | h | h | h | h | h | h | h | h | h
    all_goals first
      | exact .inr h
      | (left; rw [h]; exact isDigit_digitChar _ (by omega))

theorem strptime_dateStr {pad : Bool} {f : Fields} (hf : f.Ok) (hy : pad = true ∨ 1000 ≤ f.year) :
    strptimeFields (dateStr pad f) = some ⟨f.year, f.month, f.day, 0, 0, 0⟩ ∧
    (dateStr pad f).length = 8 ∧ (∀ c ∈ dateStr pad f, isDigit c = true ∨ c = 'T') := by
  obtain ⟨h1, h2, h3, h4, h5, h6, h7, h8, h9⟩ := hf
  have hd := daysInMonth_le (isLeap f.year) f.month h4
  simp only [dateStr, yearStr_d4 hy h2, d4, (pad2_spec f.month (by omega)).1,
    (pad2_spec f.day (by omega)).1, List.cons_append, List.nil_append]
  refine ⟨?_, rfl, ?_⟩
  · simp only [strptimeFields, yearField_d4 h2, monthField, dayField, num2_pad2 f.month (by omega),
      num2_pad2 f.day (by omega), Option.filter, digitChar_ne (n := f.day / 10) (c := ' ')
        (by omega) (by decide), if_false]
    have e1 : 1 ≤ f.month ∧ f.month ≤ 12 := ⟨h3, h4⟩
    have e2 : 1 ≤ f.day ∧ f.day ≤ 31 := ⟨h5, by omega⟩
    simp [e1, e2]
  · intro c hc
    simp only [List.mem_cons, List.not_mem_nil, or_false] at hc
    rcases hc with h | h | h | h | h | h | h | h
    all_goals (left; rw [h]; exact isDigit_digitChar _ (by omega))

theorem stripDt_id {s : Str} (h : ∀ c ∈ s, isDigit c = true ∨ c = 'T') : stripDt s = s := by
  rw [stripDt, List.filter_eq_self]
  intro c hc
  have : ∀ x : Char, isDigit x = false → x ≠ 'T' → c ≠ x := by
    rintro x h1 h2 rfl
    rcases h c hc with h3 | h3
    · rw [h1] at h3; exact absurd h3 (by decide)
    · exact h2 h3
  simp [this '/' (by decide) (by decide), this '-' (by decide) (by decide),
    this 'Z' (by decide) (by decide), this 'z' (by decide) (by decide)]

theorem fieldsOf_ok {wall : Int} (h : 0 ≤ wall ∧ wall < maxWall) : (fieldsOf wall).Ok := by
  have hd : (wall / dayUs).toNat + 1 ≤ 3652059 := by
    simp only [dayUs, maxWall] at *; omega
  have hs : (wall % dayUs / 1000000).toNat < 86400 := by simp only [dayUs] at *; omega
  obtain ⟨h1, h2, h3, h4, h5, h6, h7⟩ := ord2ymd_spec ((wall / dayUs).toNat + 1) (by omega)
  exact ⟨h1, h7 hd, h2, h3, h4, h5, by simp only [fieldsOf]; omega, by simp only [fieldsOf]; omega,
    by simp only [fieldsOf]; omega⟩

theorem wallOf_fieldsOf {wall : Int} (h : 0 ≤ wall ∧ wall < maxWall) :
    wallOf (fieldsOf wall) = .ok (wall - wall % 1000000) := by
  have hok := fieldsOf_ok h
  unfold Fields.Ok at hok
  rw [wallOf, if_pos hok]
  congr 1
  obtain ⟨h1, h2, h3, h4, h5, h6, h7⟩ := ord2ymd_spec ((wall / dayUs).toNat + 1) (by omega)
  simp only [fieldsOf, h6]
  simp only [dayUs, maxWall] at *
  omega

theorem wallOf_date {wall : Int} (h : 0 ≤ wall ∧ wall < maxWall) :
    wallOf ⟨(fieldsOf wall).year, (fieldsOf wall).month, (fieldsOf wall).day, 0, 0, 0⟩ =
      .ok (wall - wall % dayUs) := by
  obtain ⟨h1, h2, h3, h4, h5, h6, -⟩ := fieldsOf_ok h
  rw [wallOf, if_pos ⟨h1, h2, h3, h4, h5, h6, by simp, by simp, by simp⟩]
  congr 1
  obtain ⟨-, -, -, -, -, e, -⟩ := ord2ymd_spec ((wall / dayUs).toNat + 1) (by omega)
  simp only [fieldsOf, e]
  simp only [dayUs, maxWall] at *
  omega

theorem daysBeforeYear_1000 : daysBeforeYear 1000 = 364877 := by decide

/-- From 1000-01-01 on the year has four digits. -/
theorem year_ge_1000 {wall : Int} (h : 0 ≤ wall ∧ wall < maxWall) (h1 : 364877 * 86400000000 ≤ wall) :
    1000 ≤ (fieldsOf wall).year := by
  obtain ⟨e1, e2, e3, e4, e5, e6, -⟩ := ord2ymd_spec ((wall / dayUs).toNat + 1) (by omega)
  by_contra hc
  have hlt : (ord2ymd ((wall / dayUs).toNat + 1)).1 < 1000 := by simpa [fieldsOf] using hc
  have b := monthDay_bound (isLeap (ord2ymd ((wall / dayUs).toNat + 1)).1)
    (ord2ymd ((wall / dayUs).toNat + 1)).2.1 (by omega) e2
  have m := daysBeforeYear_mono e1 hlt
  rw [daysBeforeYear_1000] at m
  simp only [ymd2ord] at e6
  simp only [dayUs, maxWall] at *
  omega

theorem dictErase_absent {κ ν : Type} [DecidableEq κ] (d : List (κ × ν)) (k : κ)
    (h : dictGet? d k = none) : dictErase d k = d := by
  induction d with
  | nil => rfl
  | cons a d ih =>
    obtain ⟨k', v'⟩ := a
    simp only [dictGet?] at h
    split at h
    · cases h
    · rename_i hne
      simp only [dictErase, if_neg hne, ih h]

theorem dictGet_set {κ ν : Type} [DecidableEq κ] (d : List (κ × ν)) (k : κ) (v : ν) :
    dictGet? (dictSet d k v) k = some v := by
  induction d with
  | nil => simp [dictSet, dictGet?]
  | cons a d ih =>
    obtain ⟨k', v'⟩ := a
    simp only [dictSet]
    split
    · simp [dictGet?]
    · rename_i hne
      simp [dictGet?, hne, ih]

theorem paramTz_none {params : Params} (h : dictGet? params "TZID".toList = none) :
    paramTz params = .ok none := by simp only [paramTz, h]

/-- Reading a text made of digits and `T` of an accepted length. -/
theorem parseDt_text {w : World} {formats : List Nat} {s : Str} {f : Fields} {wall : Int}
    (hs : ∀ c ∈ s, isDigit c = true ∨ c = 'T') (hl : s.length ∈ formats) (hne : s ≠ [])
    (hf : strptimeFields s = some f) (hw : wallOf f = .ok wall) (params : Params) (ctx : Ctx) :
    parseDt w formats s params ctx =
      match paramTz params with
      | .error e => .error e
      | .ok none => .ok (⟨wall, false, none⟩, dictErase params "TZID".toList, ctx)
      | .ok (some name) =>
        match selectTz w ctx name with
        | .error e => .error e
        | .ok (z, ctx) => .ok (⟨wall, false, some (.zone z)⟩, dictErase params "TZID".toList, ctx) := by
  obtain ⟨c, hc⟩ : ∃ c, s.getLast? = some c := by
    rw [List.getLast?_eq_some_getLast hne]; exact ⟨_, rfl⟩
  have hmem : c ∈ s := List.mem_of_getLast? hc
  have hz : ¬ (c = 'Z' ∨ c = 'z') := by
    rcases hs c hmem with h | h
    · rintro (rfl | rfl) <;> exact absurd h (by decide)
    · rintro (rfl | rfl) <;> exact absurd h (by decide)
  unfold parseDt
  rw [hc, stripDt_id hs]
  simp only [hz, decide_false, hl, not_true_eq_false, if_false, hf, hw, Bool.false_eq_true]
  cases paramTz params with
  | error e => rfl
  | ok tz => cases tz <;> rfl

/-- Reading the same text followed by `Z`. -/
theorem parseDt_textZ {w : World} {formats : List Nat} {s : Str} {f : Fields} {wall : Int}
    (hs : ∀ c ∈ s, isDigit c = true ∨ c = 'T') (hl : s.length ∈ formats)
    (hf : strptimeFields s = some f) (hw : wallOf f = .ok wall) (params : Params) (ctx : Ctx)
    (hp : dictGet? params "TZID".toList = none) :
    parseDt w formats (s ++ ['Z']) params ctx =
      .ok (⟨wall, false, some (.zone w.utc)⟩, params, ctx) := by
  have hst : stripDt (s ++ ['Z']) = s := by
    rw [stripDt, List.filter_append, ← stripDt, stripDt_id hs]; simp
  unfold parseDt
  rw [paramTz_none hp, hst]
  simp only [List.getLast?_append, List.getLast?_singleton, Option.some_or, true_or, decide_true,
    hl, not_true_eq_false, if_false, hf, hw, if_true, dictErase_absent _ _ hp]

end Ics
