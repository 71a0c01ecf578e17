import Verif.Model.Duration
import Verif.Proofs.Number
import Mathlib.Tactic.Ring

namespace Ics

theorem dropWhile_length_le {α : Type} (p : α → Bool) (l : List α) :
    (l.dropWhile p).length ≤ l.length := by
  induction l with
  | nil => simp
  | cons a l ih => simp only [List.dropWhile]; split <;> simp <;> omega

/-- More iterations than characters are never needed. -/
theorem durationLoop_fuel (n m : Nat) (s : Str) (D S : List (Char × Int)) (d t : Int)
    (hn : s.length ≤ n) (hm : s.length ≤ m) :
    durationLoop n s D S d t = durationLoop m s D S d t := by
  induction n generalizing m s D S d t with
  | zero =>
    have : s = [] := by cases s <;> simp_all
    subst this
    cases m <;> rfl
  | succ n ih =>
    cases s with
    | nil => cases m <;> rfl
    | cons c rest =>
      cases m with
      | zero => simp at hm
      | succ m =>
        simp only [durationLoop]
        split
        · rfl
        · generalize hs : (if c = 'T' then rest else c :: rest) = s
          have hl : s.length ≤ rest.length + 1 := by
            rw [← hs]; split <;> simp
          have hl2 := dropWhile_length_le isDigit s
          cases hd : s.dropWhile isDigit with
          | nil => rfl
          | cons u rest' =>
            have hl3 : rest'.length ≤ rest.length := by
              rw [hd] at hl2; simp at hl2; omega
            simp at hn hm
            dsimp only
            split
            · rfl
            · split
              · rfl
              · split
                · exact ih _ _ _ _ _ _ (by omega) (by omega)
                · split
                  · exact ih _ _ _ _ _ _ (by omega) (by omega)
                  · rfl

/-- The loop with enough iterations. -/
def durLoop (s : Str) (D S : List (Char × Int)) (d t : Int) := durationLoop s.length s D S d t

theorem durLoop_nil (D S : List (Char × Int)) (d t : Int) : durLoop [] D S d t = .ok (d, t) := rfl

/-- A run of digits followed by a unit, possibly after a `T`. -/
theorem durLoop_step {ds : Str} {v : Nat} (h : Digits ds v) (hl : ds.length ≤ maxStrDigits)
    {u : Char} (hu : isDigit u = false) (rest : Str) (D S : List (Char × Int)) (d t : Int)
    (b : Bool) :
    durLoop ((if b then ['T'] else []) ++ (ds ++ u :: rest)) D S d t =
      match dictGet? D u with
      | some k => durLoop rest (dictErase D u) S (d + v * k) t
      | none =>
        match dictGet? S u with
        | some k => durLoop rest D (dictErase S u) d (t + v * k)
        | none => .error .valueError := by
  obtain ⟨c, ds', rfl⟩ : ∃ c ds', ds = c :: ds' := by
    cases ds with
    | nil => exact absurd rfl h.1
    | cons c ds' => exact ⟨c, ds', rfl⟩
  have hc := h.isDigit c (by simp)
  have hcT : c ≠ 'T' := by rintro rfl; exact absurd hc (by decide)
  obtain ⟨e1, e2⟩ := takeWhile_digits h.isDigit hu rest
  have key : ∀ n, rest.length ≤ n →
      durationLoop (n + 1) ((if b then ['T'] else []) ++ (c :: ds' ++ u :: rest)) D S d t =
      match dictGet? D u with
      | some k => durLoop rest (dictErase D u) S (d + v * k) t
      | none =>
        match dictGet? S u with
        | some k => durLoop rest D (dictErase S u) d (t + v * k)
        | none => .error .valueError := by
    intro n hn
    have fin : ∀ D S d t, durationLoop n rest D S d t = durLoop rest D S d t :=
      fun _ _ _ _ => durationLoop_fuel _ _ _ _ _ _ _ hn (Nat.le_refl _)
    simp only [List.cons_append] at e1 e2
    cases b
    · simp only [Bool.false_eq_true, if_false, List.nil_append, List.cons_append, durationLoop, hcT,
        false_and, e1, e2, h.value hl, fin]
      rw [if_neg (by simp)]
      cases dictGet? D u <;> cases dictGet? S u <;> rfl
    · simp only [if_true, List.cons_append, List.nil_append, durationLoop, e1, e2, h.value hl, fin]
      rw [if_neg (by simp), if_neg (by simp)]
      cases dictGet? D u <;> cases dictGet? S u <;> rfl
  rw [← key (((if b then ['T'] else []) ++ (c :: ds' ++ u :: rest)).length - 1)
    (by cases b <;> simp <;> omega)]
  unfold durLoop
  rw [Nat.sub_add_cancel (by cases b <;> simp)]

theorem durLoop_unit {ds : Str} {v : Nat} (h : Digits ds v) (hl : ds.length ≤ maxStrDigits)
    {u : Char} (hu : isDigit u = false) (rest : Str) (D S : List (Char × Int)) (d t : Int) :
    durLoop (ds ++ u :: rest) D S d t =
      match dictGet? D u with
      | some k => durLoop rest (dictErase D u) S (d + v * k) t
      | none =>
        match dictGet? S u with
        | some k => durLoop rest D (dictErase S u) d (t + v * k)
        | none => .error .valueError :=
  durLoop_step h hl hu rest D S d t false

theorem durLoop_T {ds : Str} {v : Nat} (h : Digits ds v)
    (u : Char) (rest : Str) (D S : List (Char × Int)) (d t : Int)
    (hl : ds.length ≤ maxStrDigits) (hu : isDigit u = false) :
    durLoop ('T' :: (ds ++ u :: rest)) D S d t = durLoop (ds ++ u :: rest) D S d t := by
  rw [durLoop_unit h hl hu]
  exact durLoop_step h hl hu rest D S d t true

/-- No unit of time is among the units of days. -/
def DaysOnly (D : List (Char × Int)) : Prop :=
  dictGet? D 'S' = none ∧ dictGet? D 'M' = none ∧ dictGet? D 'H' = none

theorem second_loop {t : Str} {k : Nat} (h : DurSecond t k) (hl : t.length ≤ maxStrDigits)
    {D S : List (Char × Int)} (hD : DaysOnly D) (hS : dictGet? S 'S' = some 1) (d s : Int) :
    durLoop t D S d s = .ok (d, s + k) := by
  cases h with
  | mk hd =>
    rw [durLoop_unit hd (by simp at hl; omega) (by decide), hD.1]
    simp [hS, durLoop_nil]

theorem minute_loop {t : Str} {k : Nat} (h : DurMinute t k) (hl : t.length ≤ maxStrDigits)
    {D S : List (Char × Int)} (hD : DaysOnly D) (hM : dictGet? S 'M' = some 60)
    (hS : dictGet? (dictErase S 'M') 'S' = some 1) (d s : Int) :
    durLoop t D S d s = .ok (d, s + k) := by
  cases h with
  | alone hd =>
    rw [durLoop_unit hd (by simp at hl; omega) (by decide), hD.2.1]
    simp [hM, durLoop_nil]; ring
  | second hd ht =>
    rw [durLoop_unit hd (by simp at hl; omega) (by decide), hD.2.1]
    simp only [hM]
    rw [second_loop ht (by simp at hl; omega) hD hS]
    simp; ring

theorem hour_loop {t : Str} {k : Nat} (h : DurHour t k) (hl : t.length ≤ maxStrDigits)
    {D S : List (Char × Int)} (hD : DaysOnly D) (hH : dictGet? S 'H' = some 3600)
    (hM : dictGet? (dictErase S 'H') 'M' = some 60)
    (hS : dictGet? (dictErase (dictErase S 'H') 'M') 'S' = some 1) (d s : Int) :
    durLoop t D S d s = .ok (d, s + k) := by
  cases h with
  | alone hd =>
    rw [durLoop_unit hd (by simp at hl; omega) (by decide), hD.2.2]
    simp [hH, durLoop_nil]; ring
  | minute hd ht =>
    rw [durLoop_unit hd (by simp at hl; omega) (by decide), hD.2.2]
    simp only [hH]
    rw [minute_loop ht (by simp at hl; omega) hD hM hS]
    simp; ring

theorem time_loop {t : Str} {k : Nat} (h : DurTime t k) (hl : t.length ≤ maxStrDigits)
    {D : List (Char × Int)} (hD : DaysOnly D) (d s : Int) :
    durLoop t D [('S', 1), ('M', 60), ('H', 3600)] d s = .ok (d, s + k) := by
  have h1 : dictGet? [('S', 1), ('M', 60), ('H', (3600 : Int))] 'S' = some 1 := by decide
  have h2 : dictGet? [('S', 1), ('M', 60), ('H', (3600 : Int))] 'M' = some 60 := by decide
  have h3 : dictGet? [('S', 1), ('M', 60), ('H', (3600 : Int))] 'H' = some 3600 := by decide
  have dropT : ∀ {t : Str} {k : Nat}, DurHour t k ∨ DurMinute t k ∨ DurSecond t k →
      t.length ≤ maxStrDigits → ∀ D S d s, durLoop ('T' :: t) D S d s = durLoop t D S d s := by
    intro t k h hl D S d s
    obtain h | h | h := h
    · cases h with
      | alone hd => exact durLoop_T hd _ _ _ _ _ _ (by simp at hl; omega) (by decide)
      | minute hd => exact durLoop_T hd _ _ _ _ _ _ (by simp at hl; omega) (by decide)
    · cases h with
      | alone hd => exact durLoop_T hd _ _ _ _ _ _ (by simp at hl; omega) (by decide)
      | second hd => exact durLoop_T hd _ _ _ _ _ _ (by simp at hl; omega) (by decide)
    · cases h with
      | mk hd => exact durLoop_T hd _ _ _ _ _ _ (by simp at hl; omega) (by decide)
  cases h with
  | hour h =>
    have hl : _ ≤ maxStrDigits := Nat.le_of_succ_le hl
    rw [dropT (.inl h) hl, hour_loop h hl hD h3 (by decide) (by decide)]
  | minute h =>
    have hl : _ ≤ maxStrDigits := Nat.le_of_succ_le hl
    rw [dropT (.inr (.inl h)) hl, minute_loop h hl hD h2 (by decide)]
  | second h =>
    have hl : _ ≤ maxStrDigits := Nat.le_of_succ_le hl
    rw [dropT (.inr (.inr h)) hl, second_loop h hl hD h1]

theorem body_loop {t : Str} {k : Nat} (h : DurBody t k) (hl : t.length ≤ maxStrDigits) :
    ∃ d s : Int, durLoop t [('D', 1), ('W', 7)] [('S', 1), ('M', 60), ('H', 3600)] 0 0 =
      .ok (d, s) ∧ d * 86400 + s = k := by
  cases h with
  | day hd =>
    rw [durLoop_unit hd (by simp at hl; omega) (by decide)]
    exact ⟨_, _, rfl, by simp; ring⟩
  | dayTime hd ht =>
    rw [durLoop_unit hd (by simp at hl; omega) (by decide)]
    have e : dictGet? [('D', (1 : Int)), ('W', 7)] 'D' = some 1 := by decide
    simp only [e]
    rw [time_loop ht (by simp at hl; omega) (by constructor <;> decide)]
    exact ⟨_, _, rfl, by simp; ring⟩
  | time ht =>
    rw [time_loop ht hl (by constructor <;> decide)]
    exact ⟨_, _, rfl, by simp⟩
  | week hd =>
    rw [durLoop_unit hd (by simp at hl; omega) (by decide)]
    exact ⟨_, _, rfl, by simp; ring⟩

/-- Every `dur-value` is understood. -/
theorem durationParse_durValue {t : Str} {v : Int} (h : DurValue t v) (hl : t.length ≤ maxStrDigits) :
    durationParse t = mkTimedelta (v * 1000000) := by
  have body : ∀ (sign : Int) {t : Str} {k : Nat}, DurBody t k → t.length ≤ maxStrDigits →
      durationBody sign ('P' :: t) = mkTimedelta (sign * k * 1000000) := by
    intro sign t k h hl
    obtain ⟨d, s, h1, h2⟩ := body_loop h hl
    simp only [durationBody, if_true]
    rw [← durLoop, h1]
    dsimp only
    congr 1
    rw [← h2]; ring
  cases h with
  | pos h =>
    have := body 1 h (Nat.le_of_succ_le hl)
    simpa [durationParse] using this
  | plus h =>
    have := body 1 h (by simp at hl; omega)
    simpa [durationParse] using this
  | neg h =>
    have := body (-1) h (by simp at hl; omega)
    simpa [durationParse] using this

/-- Hours and seconds but no minutes. -/
def HourSecondOnly (sec : Nat) : Prop := sec / 3600 ≠ 0 ∧ sec % 3600 / 60 = 0 ∧ sec % 60 ≠ 0

theorem durationTime_grammar {sec : Nat} (h0 : sec ≠ 0) (hg : ¬ HourSecondOnly sec) :
    DurTime (durationTime sec) sec := by
  have d := natStr_digits
  rw [durationTime, if_neg h0]
  by_cases hh : sec / 3600 = 0
  · simp only [hh, ne_eq, not_true_eq_false, if_false, List.nil_append]
    by_cases hm : sec / 60 = 0
    · simp only [hm, not_true_eq_false, if_false, List.nil_append]
      rw [if_pos h0]
      exact .second (.mk (d _))
    · simp only [hm, not_false_eq_true, if_true]
      by_cases hs : sec % 60 = 0
      · simp only [hs, not_true_eq_false, if_false, List.append_nil]
        have : sec = 60 * (sec / 60) := by omega
        conv => rhs; rw [this]
        exact .minute (.alone (d _))
      · simp only [hs, not_false_eq_true, if_true]
        have : sec = 60 * (sec / 60) + sec % 60 := by omega
        conv => rhs; rw [this]
        simp only [List.append_assoc, List.cons_append, List.nil_append]
        exact .minute (.second (d _) (.mk (d _)))
  · simp only [hh, ne_eq, not_false_eq_true, if_true]
    by_cases hm : sec % 3600 / 60 = 0
    · simp only [hm, not_true_eq_false, if_false, List.append_nil]
      by_cases hs : sec % 3600 = 0
      · simp only [hs, not_true_eq_false, if_false, List.append_nil]
        have : sec = 3600 * (sec / 3600) := by omega
        conv => rhs; rw [this]
        exact .hour (.alone (d _))
      · exact absurd ⟨hh, hm, by omega⟩ hg
    · simp only [hm, not_false_eq_true, if_true]
      by_cases hs : sec % 3600 % 60 = 0
      · simp only [hs, not_true_eq_false, if_false, List.append_nil]
        have : sec = 3600 * (sec / 3600) + 60 * (sec % 3600 / 60) := by omega
        conv => rhs; rw [this]
        simp only [List.append_assoc, List.cons_append, List.nil_append]
        exact .hour (.minute (d _) (.alone (d _)))
      · simp only [hs, not_false_eq_true, if_true]
        have : sec = 3600 * (sec / 3600) + (60 * (sec % 3600 / 60) + sec % 3600 % 60) := by omega
        conv => rhs; rw [this]
        simp only [List.append_assoc, List.cons_append, List.nil_append]
        exact .hour (.minute (d _) (.second (d _) (.mk (d _))))

theorem durationTime_bad {sec : Nat} (hb : HourSecondOnly sec) :
    durationTime sec = 'T' :: (natStr (sec / 3600) ++ 'H' :: (natStr (sec % 60) ++ ['S'])) := by
  obtain ⟨hh, hm, hs⟩ := hb
  have h0 : sec ≠ 0 := by rintro rfl; simp at hh
  rw [durationTime, if_neg h0]
  simp only [hh, ne_eq, not_false_eq_true, if_true, hm, not_true_eq_false, if_false]
  have h1 : sec % 3600 = sec % 60 := by omega
  rw [h1, if_pos hs]
  simp

theorem natStr_short {n : Nat} (h : n < 10 ^ 9) : (natStr n).length ≤ 9 :=
  natStr_length (by decide) h

theorem durationTime_length {sec : Nat} (h : sec < 86400) : (durationTime sec).length ≤ 50 := by
  have l1 := natStr_short (n := sec / 3600) (by omega)
  have l2 := natStr_short (n := sec % 3600 / 60) (by omega)
  have l3 := natStr_short (n := sec / 60) (by omega)
  have l4 := natStr_short (n := sec) (by omega)
  have l5 := natStr_short (n := sec % 60) (by omega)
  have l6 := natStr_short (n := sec % 3600) (by omega)
  have l7 := natStr_short (n := sec % 3600 % 60) (by omega)
  unfold durationTime
  dsimp only
  split
  · simp
  · split <;> split <;> (try split) <;> simp <;> omega

theorem durationTime_loop {sec : Nat} (h : sec < 86400) {D : List (Char × Int)} (hD : DaysOnly D)
    (d s : Int) :
    durLoop (durationTime sec) D [('S', 1), ('M', 60), ('H', 3600)] d s = .ok (d, s + sec) := by
  by_cases h0 : sec = 0
  · subst h0; simp [durationTime, durLoop_nil]
  by_cases hb : HourSecondOnly sec
  · rw [durationTime_bad hb]
    have l1 := natStr_short (n := sec / 3600) (by omega)
    have l5 := natStr_short (n := sec % 60) (by omega)
    have l1' : (natStr (sec / 3600)).length ≤ maxStrDigits := by unfold maxStrDigits; omega
    have l5' : (natStr (sec % 60)).length ≤ maxStrDigits := by unfold maxStrDigits; omega
    rw [durLoop_T (natStr_digits _) _ _ _ _ _ _ l1' (by decide),
      durLoop_unit (natStr_digits _) l1' (by decide), hD.2.2]
    have e : dictGet? [('S', 1), ('M', 60), ('H', (3600 : Int))] 'H' = some 3600 := by decide
    simp only [e]
    rw [durLoop_unit (natStr_digits _) l5' (by decide), hD.1]
    have e : dictGet? (dictErase [('S', 1), ('M', 60), ('H', (3600 : Int))] 'H') 'S' = some 1 := by
      decide
    simp only [e, durLoop_nil]
    obtain ⟨-, hm, -⟩ := hb
    have : (sec : Int) = (sec / 3600 : Nat) * 3600 + (sec % 60 : Nat) := by omega
    conv => rhs; rw [this]
    congr 2; ring
  · exact time_loop (durationTime_grammar h0 hb)
      (Nat.le_trans (durationTime_length h) (by decide)) hD d s

/-- The text after the `P`. -/
def durRes (total : Nat) : Str :=
  let res := (if total / 86400 ≠ 0 then natStr (total / 86400) ++ ['D'] else []) ++
    durationTime (total % 86400)
  if res = [] then "T0S".toList else res

theorem durRes_loop {total : Nat} (h : total < 86400 * 10 ^ 9) :
    ∃ d s : Int, durLoop (durRes total) [('D', 1), ('W', 7)] [('S', 1), ('M', 60), ('H', 3600)] 0 0 =
      .ok (d, s) ∧ d * 86400 + s = total := by
  have hm : total % 86400 < 86400 := Nat.mod_lt _ (by decide)
  unfold durRes
  dsimp only
  by_cases hd : total / 86400 = 0
  · simp only [hd, ne_eq, not_true_eq_false, if_false, List.nil_append]
    split
    · rename_i he
      have : total % 86400 = 0 := by
        by_contra hc
        rw [durationTime, if_neg hc] at he
        simp at he
      exact ⟨0, 0, by decide, by omega⟩
    · rw [durationTime_loop hm (by constructor <;> decide)]
      exact ⟨_, _, rfl, by omega⟩
  · simp only [hd, ne_eq, not_false_eq_true, if_true]
    rw [if_neg (by simp)]
    simp only [List.append_assoc, List.cons_append, List.nil_append]
    have l1 := natStr_short (n := total / 86400) (by omega)
    have l1' : (natStr (total / 86400)).length ≤ maxStrDigits := by unfold maxStrDigits; omega
    rw [durLoop_unit (natStr_digits _) l1' (by decide)]
    have e : dictGet? [('D', (1 : Int)), ('W', 7)] 'D' = some 1 := by decide
    simp only [e]
    rw [durationTime_loop hm (by constructor <;> decide)]
    exact ⟨_, _, rfl, by omega⟩

theorem durationSerialize_eq (us : Int) : durationSerialize us =
    if 0 ≤ us then 'P' :: durRes (us.natAbs / 1000000)
    else '-' :: 'P' :: durRes (us.natAbs / 1000000) := rfl

theorem durationSerialize_parse {us : Int} (h : tdMin ≤ us ∧ us ≤ tdMax) :
    durationParse (durationSerialize us) = .ok (us.tdiv 1000000 * 1000000) := by
  obtain ⟨h1, h2⟩ := h
  rw [tdMin] at h1
  rw [tdMax] at h2
  obtain ⟨d, s, e1, e2⟩ := durRes_loop (total := us.natAbs / 1000000) (by omega)
  have body : ∀ sign : Int, durationBody sign ('P' :: durRes (us.natAbs / 1000000)) =
      mkTimedelta (sign * (us.natAbs / 1000000 : Nat) * 1000000) := by
    intro sign
    simp only [durationBody, if_true]
    rw [← durLoop, e1]
    dsimp only
    congr 1
    rw [← e2]; ring
  rw [durationSerialize_eq]
  split
  · rename_i hp
    have e : us.tdiv 1000000 = (us.natAbs / 1000000 : Nat) := by
      rw [Int.tdiv_eq_ediv_of_nonneg hp]; omega
    have : durationParse ('P' :: durRes (us.natAbs / 1000000)) =
      durationBody 1 ('P' :: durRes (us.natAbs / 1000000)) := rfl
    rw [this, body, e, mkTimedelta, tdMin, tdMax, if_pos (by constructor <;> omega)]
    rw [Int.one_mul]
  · rename_i hp
    have e : us.tdiv 1000000 = -(us.natAbs / 1000000 : Nat) := by
      have h3 : us = -(-us) := by omega
      have h4 : (-us).tdiv 1000000 = (-us) / 1000000 := Int.tdiv_eq_ediv_of_nonneg (by omega)
      rw [h3, Int.neg_tdiv, h4]; omega
    have : durationParse ('-' :: 'P' :: durRes (us.natAbs / 1000000)) =
      durationBody (-1) ('P' :: durRes (us.natAbs / 1000000)) := rfl
    rw [this, body, e, mkTimedelta, tdMin, tdMax, if_pos (by constructor <;> omega)]
    congr 1; ring

/-- Written durations are in the grammar unless they have hours and seconds without minutes. -/
theorem durRes_grammar {total : Nat} (hg : ¬ HourSecondOnly (total % 86400)) :
    DurBody (durRes total) total := by
  unfold durRes
  dsimp only
  by_cases hd : total / 86400 = 0
  · simp only [hd, ne_eq, not_true_eq_false, if_false, List.nil_append]
    have e : total % 86400 = total := by omega
    by_cases h0 : total = 0
    · subst h0
      rw [if_pos (by decide)]
      refine .time (.second ?_)
      exact .mk (s := ['0']) ⟨by decide, by decide, by decide⟩
    · rw [if_neg]
      · rw [e] at hg ⊢
        exact .time (durationTime_grammar h0 hg)
      · rw [e, durationTime, if_neg h0]; simp
  · simp only [hd, ne_eq, not_false_eq_true, if_true]
    rw [if_neg (by simp)]
    simp only [List.append_assoc, List.cons_append, List.nil_append]
    by_cases h0 : total % 86400 = 0
    · rw [h0, durationTime, if_pos rfl]
      have : total = 86400 * (total / 86400) := by omega
      conv => rhs; rw [this]
      exact .day (natStr_digits _)
    · have : total = 86400 * (total / 86400) + total % 86400 := by omega
      conv => rhs; rw [this]
      exact .dayTime (natStr_digits _) (durationTime_grammar h0 hg)

theorem Digits.not_mem {s : Str} {n : Nat} (h : Digits s n) {c : Char} (hc : Ics.isDigit c = false) :
    c ∉ s := by
  intro hm
  have := h.isDigit c hm
  rw [hc] at this; exact absurd this (by decide)

theorem DurSecond.no_H {t : Str} {k : Nat} (h : DurSecond t k) : 'H' ∉ t ∧ 'M' ∉ t := by
  cases h with
  | mk hd => simp [hd.not_mem (c := 'H') (by decide), hd.not_mem (c := 'M') (by decide)]

theorem DurMinute.no_H {t : Str} {k : Nat} (h : DurMinute t k) : 'H' ∉ t ∧ 'M' ∈ t := by
  cases h with
  | alone hd => simp [hd.not_mem (c := 'H') (by decide)]
  | second hd ht => simp [hd.not_mem (c := 'H') (by decide), ht.no_H]

theorem DurHour.no_M {t : Str} {k : Nat} (h : DurHour t k) : 'M' ∉ t → 'S' ∉ t := by
  cases h with
  | alone hd => simp [hd.not_mem (c := 'S') (by decide)]
  | minute hd ht => simp [ht.no_H]

theorem DurTime.no_M {t : Str} {k : Nat} (h : DurTime t k) : 'H' ∈ t → 'M' ∉ t → 'S' ∉ t := by
  cases h with
  | hour h => intro _ hM; simp at hM ⊢; exact h.no_M hM
  | minute h => intro hH; simp [h.no_H] at hH
  | second h => intro hH; simp [h.no_H] at hH

theorem DurBody.no_M {t : Str} {k : Nat} (h : DurBody t k) : 'H' ∈ t → 'M' ∉ t → 'S' ∉ t := by
  cases h with
  | day hd => simp [hd.not_mem (c := 'H') (by decide)]
  | dayTime hd ht =>
    simp only [List.mem_append, List.mem_cons, hd.not_mem (c := 'H') (by decide),
      hd.not_mem (c := 'M') (by decide), hd.not_mem (c := 'S') (by decide), false_or]
    intro hH hM
    simp at hH hM ⊢
    exact ht.no_M hH hM
  | time h => exact h.no_M
  | week hd => simp [hd.not_mem (c := 'H') (by decide)]

theorem durRes_not_grammar {total : Nat} (hg : HourSecondOnly (total % 86400)) (k : Nat) :
    ¬ DurBody (durRes total) k := by
  intro h
  have d : ∀ n c, isDigit c = false → c ∉ natStr n := fun n c hc => (natStr_digits n).not_mem hc
  have e : durRes total = (if total / 86400 ≠ 0 then natStr (total / 86400) ++ ['D'] else []) ++
      'T' :: (natStr (total % 86400 / 3600) ++ 'H' :: (natStr (total % 86400 % 60) ++ ['S'])) := by
    unfold durRes
    dsimp only
    rw [durationTime_bad hg, if_neg (by simp)]
  have := h.no_M
  rw [e] at this
  refine this (by simp) ?_ (by simp)
  split <;> simp [d _ 'M' (by decide)]

theorem pad2_spec : ∀ n : Nat, n < 100 →
    pad2 n = [Nat.digitChar (n / 10), Nat.digitChar (n % 10)] ∧
    twoDigits (Nat.digitChar (n / 10)) (Nat.digitChar (n % 10)) = some (n : Int) := by
  decide +kernel

theorem isDigit_digitChar : ∀ n : Nat, n < 10 → isDigit (Nat.digitChar n) = true := by decide

theorem utcOffset_roundtrip {o : Int} (h : -360000 < o ∧ o < 360000) :
    utcOffsetParse (utcOffsetSerialize (o * 1000000)) = .ok (o * 1000000) := by
  obtain ⟨p1, q1⟩ := pad2_spec ((o * 1000000).natAbs / 3600000000) (by omega)
  obtain ⟨p2, q2⟩ := pad2_spec ((o * 1000000).natAbs % 3600000000 / 60000000) (by omega)
  obtain ⟨p3, q3⟩ := pad2_spec ((o * 1000000).natAbs % 3600000000 % 60000000 / 1000000) (by omega)
  simp only [utcOffsetSerialize]
  rw [p1, p2, p3]
  by_cases hs : (o * 1000000).natAbs % 3600000000 % 60000000 = 0
  · simp only [hs, ne_eq, not_true_eq_false, if_false, List.append_nil, List.cons_append,
      List.nil_append]
    by_cases hn : o * 1000000 < 0
    · rw [if_pos hn]
      simp only [utcOffsetParse, if_true, utcOffsetBody, q1, q2]
      congr 1; omega
    · rw [if_neg hn]
      simp only [utcOffsetParse, utcOffsetBody, q1, q2]
      simp only [Char.reduceEq, if_false, if_true]
      congr 1; omega
  · simp only [hs, ne_eq, not_false_eq_true, if_true, List.cons_append,
      List.nil_append]
    by_cases hn : o * 1000000 < 0
    · rw [if_pos hn]
      simp only [utcOffsetParse, if_true, utcOffsetBody, q1, q2, q3]
      congr 1; omega
    · rw [if_neg hn]
      simp only [utcOffsetParse, utcOffsetBody, q1, q2, q3]
      simp only [Char.reduceEq, if_false, if_true]
      congr 1; omega

end Ics
