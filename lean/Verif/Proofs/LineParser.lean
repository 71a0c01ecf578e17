import Verif.Model.Parser
import Mathlib.Data.List.Basic
import Mathlib.Tactic.Common

/-
The index-based parser of the model computes the same as a parser that works on suffixes of the
line.  The suffix parser is only a proof device.
-/
namespace Ics

/-! ### List helpers -/

theorem idxOf?_append_cons {a b : Str} {c : Char} (h : c ∉ a) : (a ++ c :: b).idxOf? c = some a.length := by
  induction a with
  | nil => simp [List.idxOf?, List.findIdx?_cons]
  | cons x a ih =>
    have hx : x ≠ c := by intro e; subst e; simp at h
    have := ih (by intro e; exact h (List.mem_cons_of_mem _ e))
    simp only [List.idxOf?, List.cons_append, List.findIdx?_cons] at *
    simp [hx, this]

theorem idxOf?_none {a : Str} {c : Char} (h : c ∉ a) : a.idxOf? c = none := by
  simpa [List.idxOf?, List.findIdx?_eq_none_iff] using fun x hx => by
    intro e; subst e; exact h hx

/-- Split a list at the first element satisfying `p`. -/
theorem split_first (p : Char → Bool) (t : Str) :
    (∀ c ∈ t, p c = false) ∨ ∃ a c b, t = a ++ c :: b ∧ (∀ x ∈ a, p x = false) ∧ p c = true := by
  induction t with
  | nil => left; simp
  | cons x t ih =>
    cases hx : p x with
    | true => right; exact ⟨[], x, t, rfl, by simp, hx⟩
    | false =>
      rcases ih with h | ⟨a, c, b, rfl, ha, hc⟩
      · left; intro c hc; rcases List.mem_cons.1 hc with rfl | h'
        · exact hx
        · exact h _ h'
      · right
        refine ⟨x :: a, c, b, rfl, ?_, hc⟩
        intro y hy; rcases List.mem_cons.1 hy with rfl | h'
        · exact hx
        · exact ha _ h'

theorem split_char (c : Char) (t : Str) : c ∉ t ∨ ∃ a b, t = a ++ c :: b ∧ c ∉ a := by
  rcases split_first (· == c) t with h | ⟨a, x, b, rfl, ha, hx⟩
  · left; intro hc; simpa using h _ hc
  · right
    have : x = c := by simpa using hx
    subst this
    exact ⟨a, b, rfl, fun hc => by simpa using ha _ hc⟩

/-! ### Delimiter positions -/

theorem delimsFrom_append (i : Nat) (a b : Str) :
    delimsFrom i (a ++ b) = delimsFrom i a ++ delimsFrom (i + a.length) b := by
  induction a generalizing i with
  | nil => simp [delimsFrom]
  | cons x a ih =>
    simp only [List.cons_append, delimsFrom, List.length_cons, ih]
    have : i + 1 + a.length = i + (a.length + 1) := by omega
    split <;> simp [this]

theorem delimsFrom_bound {i : Nat} {a : Str} {d : Nat} (h : d ∈ delimsFrom i a) :
    i ≤ d ∧ d < i + a.length := by
  induction a generalizing i with
  | nil => simp [delimsFrom] at h
  | cons x a ih =>
    simp only [delimsFrom] at h
    split at h
    · rcases List.mem_cons.1 h with rfl | h
      · simp
      · have := ih h; simp; omega
    · have := ih h; simp; omega

theorem delimsFrom_nil_of {i : Nat} {a : Str} (h : ∀ c ∈ a, isDelim c = false) : delimsFrom i a = [] := by
  induction a generalizing i with
  | nil => rfl
  | cons x a ih =>
    simp only [delimsFrom, h x (by simp)]
    simpa using ih (fun c hc => h c (List.mem_cons_of_mem _ hc))

theorem delimsFrom_skip {i : Nat} {a b : Str} (h : ∀ c ∈ a, isDelim c = false) :
    delimsFrom i (a ++ b) = delimsFrom (i + a.length) b := by
  rw [delimsFrom_append, delimsFrom_nil_of h]; rfl

theorem delimsFrom_eq_nil {i : Nat} {a : Str} (h : delimsFrom i a = []) : ∀ c ∈ a, isDelim c = false := by
  induction a generalizing i with
  | nil => simp
  | cons x a ih =>
    simp only [delimsFrom] at h
    split at h
    · simp at h
    · intro c hc
      rcases List.mem_cons.1 hc with rfl | hc
      · simp_all
      · exact ih h c hc

/-- First element and rest, or the error of `next_delim`. -/
def uncons : List Nat → Except PyErr (Nat × List Nat)
  | [] => .error .parseError
  | d :: ds => .ok (d, ds)

theorem skipDelims_lt {d : Nat} {ds : List Nat} {p : Nat} (h : d < p) :
    skipDelims d ds p = match ds with
      | [] => .error .parseError
      | d' :: ds' => skipDelims d' ds' p := by
  rw [skipDelims.eq_def]; simp [h]; cases ds <;> rfl

theorem skipDelims_ge {d : Nat} {ds : List Nat} {p : Nat} (h : ¬ d < p) :
    skipDelims d ds p = .ok (d, ds) := by
  rw [skipDelims.eq_def]; simp [h]

/-- Skipping over the delimiters of `a` reaches the first delimiter of `b`. -/
theorem skipDelims_append {l₁ l₂ : List Nat} {d : Nat} {ds : List Nat} {p : Nat}
    (h₁ : ∀ x ∈ l₁, x < p) (h₂ : ∀ x ∈ l₂, p ≤ x) (h : d :: ds = l₁ ++ l₂) :
    skipDelims d ds p = uncons l₂ := by
  induction l₁ generalizing d ds with
  | nil =>
    simp at h; subst h
    exact skipDelims_ge (by have := h₂ d (by simp); omega)
  | cons x l₁ ih =>
    simp only [List.cons_append, List.cons.injEq] at h
    obtain ⟨rfl, rfl⟩ := h
    rw [skipDelims_lt (h₁ d (by simp))]
    cases hl : l₁ ++ l₂ with
    | nil =>
      simp at hl; obtain ⟨rfl, rfl⟩ := hl; rfl
    | cons y ys => exact ih (fun x hx => h₁ x (List.mem_cons_of_mem _ hx)) hl.symm

/-! ### The suffix parser -/

/-- The values of a parameter; `s` starts right after `=` or a comma. Returns the values and the
suffix that starts with the delimiter after them. -/
def sVals : Nat → List PVal → Str → Except PyErr (List PVal × Str)
  | 0, _, _ => .error .outOfFuel
  | n + 1, vals, s =>
    if s.any isDelim = false then .error .parseError
    else
      match s with
      | [] => .error .parseError
      | c :: t =>
        if isDelim c then .error .parseError
        else if c = '"' then
          match t.dropWhile (· ≠ '"') with
          | [] => .error .parseError
          | _ :: rest =>
            match unescapeParam (t.takeWhile (· ≠ '"')) with
            | .error e => .error e
            | .ok v =>
              if rest.any isDelim = false then .error .parseError
              else
                match rest with
                | [] => .error .parseError
                | d :: rest' =>
                  if isDelim d then .ok (vals ++ [⟨true, v⟩], d :: rest')
                  else if d = ',' then sVals n (vals ++ [⟨true, v⟩]) rest'
                  else .error .parseError
        else
          match unescapeParam ((c :: t).takeWhile (fun c => !isDelim c && c != ',')) with
          | .error e => .error e
          | .ok v =>
            match (c :: t).dropWhile (fun c => !isDelim c && c != ',') with
            | [] => .error .parseError
            | d :: rest' =>
              if d = ',' then sVals n (vals ++ [⟨false, v⟩]) rest'
              else .ok (vals ++ [⟨false, v⟩], d :: rest')

theorem takeWhile_split {p : Char → Bool} {a b : Str} {c : Char} (ha : ∀ x ∈ a, p x = true)
    (hc : p c = false) : (a ++ c :: b).takeWhile p = a := by
  rw [List.takeWhile_append_of_pos ha, List.takeWhile_cons_of_neg (by simp [hc]), List.append_nil]

theorem dropWhile_split {p : Char → Bool} {a b : Str} {c : Char} (ha : ∀ x ∈ a, p x = true)
    (hc : p c = false) : (a ++ c :: b).dropWhile p = c :: b := by
  rw [List.dropWhile_append_of_pos ha, List.dropWhile_cons_of_neg (by simp [hc])]

theorem dropWhile_all {p : Char → Bool} {a : Str} (ha : ∀ x ∈ a, p x = true) : a.dropWhile p = [] := by
  induction a with
  | nil => rfl
  | cons x a ih => simp [ha x (by simp), ih (fun y hy => ha y (List.mem_cons_of_mem _ hy))]

theorem unescapeParam_err {s : Str} {e : PyErr} (h : unescapeParam s = .error e) : e = .parseError := by
  fun_induction unescapeParam s <;> simp_all [Except.map]
  all_goals
    split at h <;> simp_all

theorem any_isDelim_false {s : Str} : s.any isDelim = false ↔ ∀ c ∈ s, isDelim c = false := by
  simp

/-- What follows a closing quote. -/
def sAfterQuote (n : Nat) (vals : List PVal) (rest : Str) : Except PyErr (List PVal × Str) :=
  if rest.any isDelim = false then .error .parseError
  else
    match rest with
    | [] => .error .parseError
    | d :: rest' =>
      if isDelim d then .ok (vals, d :: rest')
      else if d = ',' then sVals n vals rest'
      else .error .parseError

theorem isDelim_quote : isDelim '"' = false := by decide
theorem isDelim_comma : isDelim ',' = false := by decide
theorem isDelim_eq : isDelim '=' = false := by decide

theorem sVals_quoted {n : Nat} {vals : List PVal} {a b : Str} (ha : '"' ∉ a) :
    sVals (n + 1) vals ('"' :: (a ++ '"' :: b)) =
      match unescapeParam a with
      | .error e => .error e
      | .ok v => sAfterQuote n (vals ++ [⟨true, v⟩]) b := by
  have hp : ∀ x ∈ a, (decide (x ≠ '"')) = true := by
    intro x hx; simp; rintro rfl; exact ha hx
  rw [sVals, dropWhile_split hp (by simp), takeWhile_split hp (by simp)]
  simp only [isDelim_quote, Bool.false_eq_true, if_false]
  split
  · rename_i hd
    have hb : b.any isDelim = false := by
      rw [any_isDelim_false] at hd ⊢
      intro c hc; exact hd c (by simp [hc])
    cases hu : unescapeParam a with
    | error e => simp [unescapeParam_err hu]
    | ok v => simp [sAfterQuote, hb]
  · cases hu : unescapeParam a with
    | error e => rfl
    | ok v => simp only [sAfterQuote.eq_def, if_true]; cases b <;> rfl

theorem sVals_unclosed {n : Nat} {vals : List PVal} {t : Str} (h : '"' ∉ t) :
    sVals (n + 1) vals ('"' :: t) = .error .parseError := by
  have hp : ∀ x ∈ t, (decide (x ≠ '"')) = true := by
    intro x hx; simp; rintro rfl; exact h hx
  rw [sVals, dropWhile_all hp]
  simp [isDelim_quote]

theorem sVals_delim {n : Nat} {vals : List PVal} {c : Char} {t : Str} (h : isDelim c = true) :
    sVals (n + 1) vals (c :: t) = .error .parseError := by
  rw [sVals]; simp [h]

theorem sVals_nodelim {n : Nat} {vals : List PVal} {s : Str} (h : ∀ c ∈ s, isDelim c = false) :
    sVals (n + 1) vals s = .error .parseError := by
  rw [sVals.eq_def]; simp only [if_pos (any_isDelim_false.2 h)]

/-- A raw value that is followed by a comma. -/
theorem sVals_raw_comma {n : Nat} {vals : List PVal} {a b : Str} (ha : ∀ x ∈ a, isDelim x = false ∧ x ≠ ',')
    (hq : a.head? ≠ some '"') (hb : b.any isDelim = true) :
    sVals (n + 1) vals (a ++ ',' :: b) =
      match unescapeParam a with
      | .error e => .error e
      | .ok v => sVals n (vals ++ [⟨false, v⟩]) b := by
  have hp : ∀ x ∈ a, (!isDelim x && x != ',') = true := by
    intro x hx; have := ha x hx; simp [this]
  have hpc : (!isDelim ',' && ',' != ',') = false := by simp
  cases a with
  | nil =>
    rw [List.nil_append, sVals]
    simp only [List.any_cons, isDelim_comma, hb, Bool.or_true, Bool.true_eq_false, if_false,
      Bool.false_eq_true, show (',' : Char) ≠ '"' by decide]
    have h1 := takeWhile_split (p := fun c => !isDelim c && c != ',') (a := []) (b := b) (by simp) hpc
    have h2 := dropWhile_split (p := fun c => !isDelim c && c != ',') (a := []) (b := b) (by simp) hpc
    rw [List.nil_append] at h1 h2
    rw [h1, h2]
    simp [unescapeParam]
  | cons c a =>
    have h1 := takeWhile_split (b := b) hp hpc
    have h2 := dropWhile_split (b := b) hp hpc
    rw [List.cons_append] at h1 h2 ⊢
    rw [sVals]
    simp only [List.any_cons, List.any_append, hb, Bool.or_true, Bool.true_eq_false, if_false,
      (ha c (by simp)).1, Bool.false_eq_true]
    rw [h1, h2, if_neg (by simpa using hq)]
    simp

/-- A raw value that is the last one of its parameter. -/
theorem sVals_raw_last {n : Nat} {vals : List PVal} {a b : Str} {d : Char}
    (ha : ∀ x ∈ a, isDelim x = false ∧ x ≠ ',')
    (hq : a.head? ≠ some '"') (hne : a ≠ []) (hd : isDelim d = true) :
    sVals (n + 1) vals (a ++ d :: b) =
      match unescapeParam a with
      | .error e => .error e
      | .ok v => .ok (vals ++ [⟨false, v⟩], d :: b) := by
  have hp : ∀ x ∈ a, (!isDelim x && x != ',') = true := by
    intro x hx; have := ha x hx; simp [this]
  have hpc : (!isDelim d && d != ',') = false := by simp [hd]
  cases a with
  | nil => exact absurd rfl hne
  | cons c a =>
    have h1 := takeWhile_split (b := b) hp hpc
    have h2 := dropWhile_split (b := b) hp hpc
    rw [List.cons_append] at h1 h2 ⊢
    rw [sVals]
    simp only [List.any_cons, List.any_append, hd, Bool.true_or, Bool.or_true, Bool.true_eq_false, if_false,
      (ha c (by simp)).1, Bool.false_eq_true]
    rw [h1, h2, if_neg (by simpa using hq)]
    have : d ≠ ',' := by rintro rfl; exact absurd hd (by decide)
    simp [this]

/-! ### Simulation -/

/-- The index state stands at the suffix `s` of the line. -/
structure AtSuffix (line : Str) (pos delim : Nat) (delims : List Nat) (s : Str) : Prop where
  eq : ∃ pre, line = pre ++ s ∧ pos = pre.length
  del : delim :: delims = delimsFrom pos s

theorem AtSuffix.any {line s : Str} {pos delim : Nat} {delims : List Nat}
    (h : AtSuffix line pos delim delims s) : s.any isDelim = true := by
  by_contra hc
  have : delimsFrom pos s = [] := delimsFrom_nil_of (any_isDelim_false.1 (by simpa using hc))
  rw [← h.del] at this; simp at this

/-- The result of the suffix parser describes the result of the index parser. -/
def Rel (line : Str) : Except PyErr (List PVal × Str) → Except PyErr PSt → Prop
  | .error e, r => r = .error e
  | .ok (vs, s), r => ∃ st, r = .ok st ∧ st.vals = vs ∧ AtSuffix line st.delim st.delim st.delims s

theorem delimsFrom_head {i : Nat} {a : Str} {d : Char} {b : Str} (ha : ∀ c ∈ a, isDelim c = false)
    (hd : isDelim d = true) : delimsFrom i (a ++ d :: b) = (i + a.length) :: delimsFrom (i + a.length + 1) b := by
  rw [delimsFrom_skip ha]; simp [delimsFrom, hd]

theorem slice_mid (pre a b : Str) : slice (pre ++ (a ++ b)) pre.length (pre.length + a.length) = a := by
  have : pre ++ (a ++ b) = (pre ++ a) ++ b := by simp
  rw [slice, this, ← List.length_append, List.take_left, List.drop_left]

theorem findBetween_none {pre a b : Str} {c : Char} (h : c ∉ a) :
    findBetween (pre ++ (a ++ b)) c pre.length (pre.length + a.length) = none := by
  rw [findBetween, show ((pre ++ (a ++ b)).take (pre.length + a.length)).drop pre.length = a from slice_mid pre a b,
    idxOf?_none h]; rfl

theorem findBetween_some {pre a a' b : Str} {c : Char} (h : c ∉ a) :
    findBetween (pre ++ ((a ++ c :: a') ++ b)) c pre.length (pre.length + (a ++ c :: a').length) =
      some (pre.length + a.length) := by
  rw [findBetween, show ((pre ++ ((a ++ c :: a') ++ b)).take (pre.length + (a ++ c :: a').length)).drop pre.length
    = a ++ c :: a' from slice_mid pre _ b, idxOf?_append_cons h]; simp [Nat.add_comm]

theorem indexFrom_some {pre a b : Str} {c : Char} (h : c ∉ a) :
    indexFrom (pre ++ (a ++ c :: b)) c pre.length = some (pre.length + a.length) := by
  rw [indexFrom, List.drop_left, idxOf?_append_cons h]; simp [Nat.add_comm]

theorem indexFrom_none {pre a : Str} {c : Char} (h : c ∉ a) :
    indexFrom (pre ++ a) c pre.length = none := by
  rw [indexFrom, List.drop_left, idxOf?_none h]; rfl

theorem getChar_mid {pre b : Str} {c : Char} : getChar (pre ++ c :: b) pre.length = .ok c := by
  simp [getChar]

theorem sim_vals (line : Str) (n : Nat) : ∀ (st : PSt) (s : Str),
    AtSuffix line st.pvs st.delim st.delims s →
    Rel line (sVals n st.vals s) (parseVals line n st) := by
  induction n with
  | zero => intro st s _; simp [sVals, parseVals, Rel]
  | succ n ih =>
    intro st s h
    have hany := h.any
    obtain ⟨pre, hl, hp⟩ := h.eq
    cases s with
    | nil => simp at hany
    | cons c t =>
      by_cases hc : isDelim c = true
      · rw [sVals_delim hc]
        have hd := h.del
        simp only [delimsFrom, hc, if_true, List.cons.injEq] at hd
        simp [Rel, parseVals, hd.1]
      · have hc' : isDelim c = false := by simpa using hc
        have hd := h.del
        have hlt : ¬ st.delim ≤ st.pvs := by
          have : st.delim ∈ delimsFrom (st.pvs + 1) t := by
            have : delimsFrom st.pvs (c :: t) = delimsFrom (st.pvs + 1) t := by simp [delimsFrom, hc']
            rw [← this, ← hd]; simp
          have := (delimsFrom_bound this).1
          omega
        have hget : getChar line st.pvs = .ok c := by rw [hl, hp, getChar_mid]
        rw [parseVals, if_neg hlt, hget]
        simp only
        by_cases hq : c = '"'
        · subst hq
          simp only [if_true]
          have hpre : (pre ++ ['"']).length = st.pvs + 1 := by simp [hp]
          rcases split_char '"' t with hno | ⟨a, b, rfl, ha⟩
          · rw [sVals_unclosed hno]
            have : indexFrom line '"' (st.pvs + 1) = none := by
              rw [hl, ← hpre, show pre ++ '"' :: t = (pre ++ ['"']) ++ t by simp, indexFrom_none hno]
            simp [parseQuoted, this, Rel]
          · rw [sVals_quoted ha]
            have hl2 : line = (pre ++ ['"']) ++ (a ++ '"' :: b) := by rw [hl]; simp
            have hidx : indexFrom line '"' (st.pvs + 1) = some (st.pvs + 1 + a.length) := by
              rw [hl2, ← hpre, indexFrom_some ha]
            have hsl : slice line (st.pvs + 1) (st.pvs + 1 + a.length) = a := by
              rw [hl2, ← hpre, slice_mid]
            have hl3 : line = (pre ++ ['"'] ++ a ++ ['"']) ++ b := by rw [hl]; simp
            have hlen3 : (pre ++ ['"'] ++ a ++ ['"']).length = st.pvs + 1 + a.length + 1 := by
              simp [hp]; omega
            have hdd : st.delim :: st.delims =
                delimsFrom st.pvs ('"' :: (a ++ ['"'])) ++ delimsFrom (st.pvs + 1 + a.length + 1) b := by
              rw [hd, show '"' :: (a ++ '"' :: b) = ('"' :: (a ++ ['"'])) ++ b by simp, delimsFrom_append]
              simp only [List.length_cons, List.length_append, List.length_nil]
              congr 2; omega
            have hskip := skipDelims_append (p := st.pvs + 1 + a.length + 1) (fun x hx => by
              have := (delimsFrom_bound hx).2; simp at this; omega) (fun x hx => (delimsFrom_bound hx).1) hdd
            simp only [parseQuoted, hidx, hsl, hskip]
            cases hu : unescapeParam a with
            | error e => simp [Rel]
            | ok v =>
              simp only [sAfterQuote]
              cases hdb : delimsFrom (st.pvs + 1 + a.length + 1) b with
              | nil =>
                have := delimsFrom_eq_nil hdb
                rw [if_pos (any_isDelim_false.2 this)]
                simp [uncons, Rel]
              | cons d ds =>
                have hbany : ¬ b.any isDelim = false := by
                  intro hb; rw [delimsFrom_nil_of (any_isDelim_false.1 hb)] at hdb; simp at hdb
                rw [if_neg hbany]
                simp only [uncons]
                cases b with
                | nil => simp [delimsFrom] at hdb
                | cons x b' =>
                  by_cases hx : isDelim x = true
                  · simp only [delimsFrom, hx, if_true, List.cons.injEq] at hdb
                    obtain ⟨rfl, rfl⟩ := hdb
                    simp only [if_true, hx, Rel]
                    refine ⟨_, rfl, rfl, ⟨_, hl3, hlen3.symm⟩, ?_⟩
                    simp [delimsFrom, hx]
                  · have hx' : isDelim x = false := by simpa using hx
                    have hne : d ≠ st.pvs + 1 + a.length + 1 := by
                      simp only [delimsFrom, hx', Bool.false_eq_true, if_false] at hdb
                      have := (delimsFrom_bound (i := st.pvs + 1 + a.length + 1 + 1) (a := b') (d := d) (by rw [hdb]; simp)).1
                      omega
                    have hg : getChar line (st.pvs + 1 + a.length + 1) = .ok x := by
                      rw [← hlen3]; conv => lhs; rw [hl3]
                      exact getChar_mid
                    rw [if_neg hne, hg]
                    simp only [hx', Bool.false_eq_true, if_false]
                    by_cases hcm : x = ','
                    · subst hcm
                      simp only [if_true]
                      refine ih ⟨ds, d, st.pvs + 1 + a.length + 1 + 1, st.vals ++ [⟨true, v⟩]⟩ b' ?_
                      refine ⟨⟨pre ++ ['"'] ++ a ++ ['"'] ++ [','], by rw [hl]; simp, by simp [hp]; omega⟩, ?_⟩
                      simp only [delimsFrom, isDelim_comma, Bool.false_eq_true, if_false] at hdb
                      exact hdb.symm
                    · simp [hcm, Rel]
        · simp only [hq, if_false]
          rcases split_first (fun c => isDelim c || c == ',') (c :: t) with hno | ⟨a, d, b, hs, ha, hdp⟩
          · have : ∀ x ∈ c :: t, isDelim x = false := fun x hx => by
              have := hno x hx; simp at this; exact this.1
            rw [any_isDelim_false.2 this] at hany; simp at hany
          · have ha' : ∀ x ∈ a, isDelim x = false ∧ x ≠ ',' := fun x hx => by simpa using ha x hx
            have hhead : a.head? ≠ some '"' := by
              cases a with
              | nil => simp
              | cons y a =>
                simp only [List.cons_append, List.cons.injEq] at hs
                rw [← hs.1]; simpa using hq
            have hl2 : line = pre ++ (a ++ d :: b) := by rw [hl, hs]
            by_cases hcm : d = ','
            · -- followed by a comma
              subst hcm
              have hbany : b.any isDelim = true := by
                rw [hs] at hany
                by_contra hb
                have hb' := any_isDelim_false.1 (by simpa using hb)
                have : ∀ x ∈ a ++ ',' :: b, isDelim x = false := by
                  intro x hx
                  rcases List.mem_append.1 hx with h1 | h1
                  · exact (ha' x h1).1
                  · rcases List.mem_cons.1 h1 with rfl | h1
                    · exact isDelim_comma
                    · exact hb' x h1
                rw [any_isDelim_false.2 this] at hany; simp at hany
              rw [hs, sVals_raw_comma ha' hhead hbany]
              rcases split_first isDelim b with hno | ⟨b1, d1, b2, rfl, hb1, hd1⟩
              · rw [any_isDelim_false.2 hno] at hbany; simp at hbany
              · have hdel : st.delim = pre.length + (a ++ ',' :: b1).length ∧
                    st.delim :: st.delims = delimsFrom (pre.length + a.length + 1) (b1 ++ d1 :: b2) := by
                  rw [hs, hp, show a ++ ',' :: (b1 ++ d1 :: b2) = (a ++ [',']) ++ (b1 ++ d1 :: b2) by simp,
                    delimsFrom_skip (by
                      intro x hx
                      rcases List.mem_append.1 hx with h1 | h1
                      · exact (ha' x h1).1
                      · simp at h1; subst h1; exact isDelim_comma)] at hd
                  have e : pre.length + (a ++ [',']).length = pre.length + a.length + 1 := by simp; omega
                  rw [e] at hd
                  refine ⟨?_, hd⟩
                  rw [delimsFrom_head hb1 hd1] at hd
                  simp only [List.cons.injEq] at hd
                  rw [hd.1]; simp; omega
                have hl4 : line = pre ++ ((a ++ ',' :: b1) ++ d1 :: b2) := by rw [hl2]; simp
                have hf : findBetween line ',' st.pvs st.delim = some (pre.length + a.length) := by
                  rw [hl4, hp, hdel.1, findBetween_some (fun hm => (ha' ',' hm).2 rfl)]
                have hsl : slice line st.pvs (pre.length + a.length) = a := by
                  rw [hl2, hp, slice_mid]
                simp only [parseRaw, hf, hsl]
                cases hu : unescapeParam a with
                | error e => simp [Rel]
                | ok v =>
                  simp only
                  refine ih ⟨st.delims, st.delim, pre.length + a.length + 1, st.vals ++ [⟨false, v⟩]⟩ _ ?_
                  refine ⟨⟨pre ++ a ++ [','], by rw [hl2]; simp, by simp; omega⟩, ?_⟩
                  exact hdel.2
            · have hdd : isDelim d = true := by simpa [hcm] using hdp
              have hane : a ≠ [] := by
                rintro rfl
                simp only [List.nil_append, List.cons.injEq] at hs
                rw [hs.1] at hc'; rw [hc'] at hdd; simp at hdd
              rw [hs, sVals_raw_last ha' hhead hane hdd]
              have hdel : st.delim :: st.delims = (pre.length + a.length) :: delimsFrom (pre.length + a.length + 1) b := by
                rw [hd, hs, hp, delimsFrom_head (fun x hx => (ha' x hx).1) hdd]
              simp only [List.cons.injEq] at hdel
              have hf : findBetween line ',' st.pvs st.delim = none := by
                rw [hl2, hp, hdel.1, findBetween_none (fun hm => (ha' ',' hm).2 rfl)]
              have hsl : slice line st.pvs st.delim = a := by
                rw [hl2, hp, hdel.1, slice_mid]
              simp only [parseRaw, hf, hsl]
              cases hu : unescapeParam a with
              | error e => simp [Rel]
              | ok v =>
                simp only [Rel]
                refine ⟨_, rfl, rfl, ⟨pre ++ a, by rw [hl2]; simp, by simp [hdel.1]⟩, ?_⟩
                simp only [hdel.1, hdel.2, delimsFrom, hdd, if_true]

/-- One parameter; `t` starts right after the semicolon. -/
def sParam (N : Nat) (t : Str) : Except PyErr (Str × List PVal × Str) :=
  match t.dropWhile (· ≠ '=') with
  | [] => .error .parseError
  | _ :: r =>
    if (t.takeWhile (· ≠ '=')).any isDelim then .error .parseError
    else
      match sVals N [] r with
      | .error e => .error e
      | .ok (vs, s) => .ok (t.takeWhile (· ≠ '='), vs, s)

theorem sParam_eq {N : Nat} {a r : Str} (ha : '=' ∉ a) :
    sParam N (a ++ '=' :: r) = if a.any isDelim then .error .parseError else
      match sVals N [] r with
      | .error e => .error e
      | .ok (vs, s) => .ok (a, vs, s) := by
  have hp : ∀ x ∈ a, (decide (x ≠ '=')) = true := by
    intro x hx; simp; rintro rfl; exact ha hx
  rw [sParam, dropWhile_split hp (by simp), takeWhile_split hp (by simp)]

theorem sParam_noeq {N : Nat} {t : Str} (h : '=' ∉ t) : sParam N t = .error .parseError := by
  have hp : ∀ x ∈ t, (decide (x ≠ '=')) = true := by
    intro x hx; simp; rintro rfl; exact h hx
  rw [sParam, dropWhile_all hp]

/-- The main loop; `s` starts with a delimiter. -/
def sLoop (N : Nat) (name : Str) : Nat → Params → Str → Except PyErr ContentLine
  | 0, _, _ => .error .outOfFuel
  | _ + 1, _, [] => .error .indexError
  | n + 1, params, c :: t =>
    if c = ':' then .ok (mkContentLine name params t)
    else if c = ';' then
      match sParam N t with
      | .error e => .error e
      | .ok (pn, vs, s) => sLoop N name n (dictSet params pn vs) s
    else .error .assertionError

/-- The whole line. -/
def sParse (line : Str) : Except PyErr ContentLine :=
  if line.any isDelim = false then .error .parseError
  else sLoop (line.length + 1) (line.takeWhile (fun c => !isDelim c)) (line.length + 1) []
    (line.dropWhile (fun c => !isDelim c))

theorem sim_param (line : Str) (delim : Nat) (delims : List Nat) (c : Char) (t : Str)
    (h : AtSuffix line delim delim delims (c :: t)) (hc : isDelim c = true) :
    match sParam (line.length + 1) t with
    | .error e => parseParam line delim delims = .error e
    | .ok (pn, vs, s) => ∃ st, parseParam line delim delims = .ok (pn, st) ∧ st.vals = vs ∧
        AtSuffix line st.delim st.delim st.delims s := by
  obtain ⟨pre, hl, hp⟩ := h.eq
  have hdel : delims = delimsFrom (delim + 1) t := by
    have := h.del
    simp only [delimsFrom, hc, if_true, List.cons.injEq] at this
    exact this.2
  have hl1 : line = (pre ++ [c]) ++ t := by rw [hl]; simp
  have hlen1 : (pre ++ [c]).length = delim + 1 := by simp [hp]
  rcases split_char '=' t with hno | ⟨a, r, rfl, ha⟩
  · rw [sParam_noeq hno]
    have : indexFrom line '=' (delim + 1) = none := by
      rw [← hlen1]; conv => lhs; rw [hl1]
      exact indexFrom_none hno
    simp [parseParam, this]
  · rw [sParam_eq ha]
    have hidx : indexFrom line '=' (delim + 1) = some (delim + 1 + a.length) := by
      rw [← hlen1]; conv => lhs; rw [hl1]
      exact indexFrom_some ha
    have hsl : slice line (delim + 1) (delim + 1 + a.length) = a := by
      rw [← hlen1]; conv => lhs; rw [hl1]
      exact slice_mid _ _ _
    simp only [parseParam, hidx, hsl]
    cases hds : delims with
    | nil =>
      have hnil := delimsFrom_eq_nil (hdel.symm.trans hds)
      have h1 : a.any isDelim = false := any_isDelim_false.2 (fun c hc => hnil c (by simp [hc]))
      have h2 : ∀ c ∈ r, isDelim c = false := fun c hc => hnil c (by simp [hc])
      simp [h1, sVals_nodelim h2, nextDelim]
    | cons d ds =>
      simp only [nextDelim]
      by_cases hany : a.any isDelim = true
      · rw [if_pos hany]
        have hd : d ≤ delim + 1 + a.length + 1 := by
          rw [hdel, delimsFrom_append] at hds
          cases hda : delimsFrom (delim + 1) a with
          | nil =>
            have := any_isDelim_false.2 (delimsFrom_eq_nil hda)
            rw [this] at hany; simp at hany
          | cons x xs =>
            rw [hda] at hds
            simp only [List.cons_append, List.cons.injEq] at hds
            have := (delimsFrom_bound (i := delim + 1) (a := a) (d := x) (by rw [hda]; simp)).2
            omega
        simp [parseVals, hd]
      · rw [if_neg hany]
        have hnd : ∀ c ∈ a ++ ['='], isDelim c = false := by
          intro x hx
          rcases List.mem_append.1 hx with h1 | h1
          · exact any_isDelim_false.1 (by simpa using hany) x h1
          · simp at h1; subst h1; exact isDelim_eq
        have hd2 : d :: ds = delimsFrom (delim + 1 + a.length + 1) r := by
          rw [← hds, hdel, show a ++ '=' :: r = (a ++ ['=']) ++ r by simp, delimsFrom_skip hnd]
          simp [Nat.add_assoc]
        have := sim_vals line (line.length + 1) ⟨ds, d, delim + 1 + a.length + 1, []⟩ r
          ⟨⟨pre ++ [c] ++ a ++ ['='], by rw [hl1]; simp, by simp [hp]; omega⟩, hd2⟩
        simp only [Rel] at this
        cases hv : sVals (line.length + 1) [] r with
        | error e => rw [hv] at this; simp only at this; simp [this]
        | ok q =>
          obtain ⟨vs, s⟩ := q
          rw [hv] at this; simp only at this
          obtain ⟨st, h1, h2, h3⟩ := this
          simp only [h1]
          exact ⟨st, rfl, h2, h3⟩

theorem sim_loop (line name : Str) (n : Nat) : ∀ (params : Params) (delim : Nat) (delims : List Nat) (s : Str),
    AtSuffix line delim delim delims s →
    parseLoop line name n params delim delims = sLoop (line.length + 1) name n params s := by
  induction n with
  | zero => intros; rfl
  | succ n ih =>
    intro params delim delims s h
    obtain ⟨pre, hl, hp⟩ := h.eq
    cases s with
    | nil => have := h.any; simp at this
    | cons c t =>
      have hg : getChar line delim = .ok c := by rw [hl, hp, getChar_mid]
      simp only [parseLoop, sLoop, hg]
      by_cases hc : c = ':'
      · simp only [hc, if_true]
        have : line.drop (delim + 1) = t := by
          rw [hl, hp, show pre ++ c :: t = (pre ++ [c]) ++ t by simp,
            show pre.length + 1 = (pre ++ [c]).length by simp, List.drop_left]
        rw [this]
      · simp only [hc, if_false]
        by_cases hc2 : c = ';'
        · simp only [hc2, if_true]
          have := sim_param line delim delims c t h (by rw [hc2]; decide)
          cases hsp : sParam (line.length + 1) t with
          | error e => rw [hsp] at this; simp only at this; simp [this]
          | ok q =>
            obtain ⟨pn, vs, s'⟩ := q
            rw [hsp] at this; simp only at this
            obtain ⟨st, h1, h2, h3⟩ := this
            simp only [h1, ← h2]
            exact ih _ _ _ _ h3
        · simp [hc2]

theorem parseLine_eq (line : Str) : parseLine line = sParse line := by
  rcases split_first isDelim line with hno | ⟨a, d, b, rfl, ha, hd⟩
  · simp only [parseLine, delimsFrom_nil_of hno, sParse, any_isDelim_false.2 hno, if_true]
  · have hany : ¬ ((a ++ d :: b).any isDelim = false) := by simp [hd]
    have ha' : ∀ x ∈ a, (!isDelim x) = true := fun x hx => by simp [ha x hx]
    rw [parseLine, sParse, if_neg hany, delimsFrom_head ha hd, takeWhile_split ha' (by simp [hd]),
      dropWhile_split ha' (by simp [hd])]
    simp only [Nat.zero_add, List.take_left]
    apply sim_loop
    refine ⟨⟨a, rfl, rfl⟩, ?_⟩
    simp [delimsFrom, hd]

end Ics
