import Verif.Model.Text
import Verif.Spec.Text
import Mathlib.Tactic.Common

namespace Ics

theorem unescapeText_esc (c : Char) (s : Str) : unescapeText ('\\' :: c :: s) =
    match unescapeChar c with
    | .error e => .error e
    | .ok c => (unescapeText s).map (c :: ·) := by
  simp only [unescapeText, if_true]
  cases unescapeChar c <;> rfl

theorem unescapeText_end : unescapeText ['\\'] = .error .valueError := by
  simp only [unescapeText, if_true]

theorem unescapeText_plain {c : Char} (h : c ≠ '\\') (s : Str) : unescapeText (c :: s) =
    if c = ';' ∨ c = ',' ∨ c = '\n' ∨ c = '\r' then .error .valueError
    else (unescapeText s).map (c :: ·) := by
  cases s <;> simp only [unescapeText, if_neg h]

theorem unescapeText_escapeChar (c : Char) (t : Str) :
    unescapeText (escapeTextChar c ++ t) = (unescapeText t).map (c :: ·) := by
  simp only [escapeTextChar]
  split
  · rename_i h; subst h; simp [unescapeText_esc, unescapeChar]
  · split
    · rename_i h; subst h; simp [unescapeText_esc, unescapeChar]
    · split
      · rename_i h; subst h; simp [unescapeText_esc, unescapeChar]
      · split
        · rename_i h; subst h; simp [unescapeText_esc, unescapeChar]
        · split
          · rename_i h; subst h; simp [unescapeText_esc, unescapeChar]
          · rename_i h1 h2 h3 h4 h5
            simp [unescapeText_plain h1, h2, h3, h4, h5]

theorem unescape_escapeText (s : Str) : unescapeText (escapeText s) = .ok s := by
  induction s with
  | nil => rfl
  | cons c s ih =>
    rw [escapeText, List.flatMap_cons, unescapeText_escapeChar]
    rw [escapeText] at ih
    rw [ih]; rfl

theorem escape_grammar_char (c : Char) (t : Str) (h : TextGrammar t) : TextGrammar (escapeTextChar c ++ t) := by
  simp only [escapeTextChar]
  split
  · exact .esc _ _ (by decide) h
  · split
    · exact .esc _ _ (by decide) h
    · split
      · exact .esc _ _ (by decide) h
      · split
        · exact .esc _ _ (by decide) h
        · split
          · exact .esc _ _ (by decide) h
          · rename_i h1 h2 h3 h4 h5
            exact .plain _ _ (by simp [h1, h2, h3, h4, h5]) h

theorem escape_grammar (s : Str) : TextGrammar (escapeText s) := by
  induction s with
  | nil => exact .nil
  | cons c s ih => rw [escapeText, List.flatMap_cons]; exact escape_grammar_char c _ ih

theorem grammar_no_break {s : Str} (h : TextGrammar s) : '\n' ∉ s ∧ '\r' ∉ s := by
  induction h with
  | nil => simp
  | plain c s hc _ ih => 
    simp only [List.mem_cons, List.not_mem_nil, or_false, not_or] at hc ⊢
    exact ⟨⟨Ne.symm hc.2.2.2.1, ih.1⟩, Ne.symm hc.2.2.2.2, ih.2⟩
  | esc c s hc _ ih =>
    simp only [List.mem_cons, List.not_mem_nil, or_false, not_or] at hc ⊢
    refine ⟨⟨by decide, ?_, ih.1⟩, by decide, ?_, ih.2⟩ <;>
      rcases hc with rfl | rfl | rfl | rfl | rfl | rfl | rfl <;> decide

theorem unescapeChar_ok (c : Char) : (∃ d, unescapeChar c = .ok d) ↔ c ∈ ['\\', ';', ',', 'n', 'N', 'r', 'R'] := by
  simp only [unescapeChar, List.mem_cons, List.not_mem_nil, or_false]
  split
  · rename_i h; simp [h]
  · split
    · rename_i h; simp [h]
    · split
      · rename_i h; rcases h with h | h <;> simp [h]
      · split
        · rename_i h; rcases h with h | h <;> simp [h]
        · split
          · rename_i h; simp [h]
          · rename_i h1 h2 h3 h4 h5
            simp only [not_or] at h3 h4
            simp [h1, h2, h3.1, h3.2, h4.1, h4.2, h5]

theorem unescapeChar_err {c : Char} {e : PyErr} (h : unescapeChar c = .error e) : e = .valueError := by
  simp only [unescapeChar] at h
  repeat' split at h
  all_goals simp_all

theorem unescape_iff (n : Nat) : ∀ s : Str, s.length ≤ n →
    ((∃ t, unescapeText s = .ok t) ↔ TextGrammar s) ∧ (∀ e, unescapeText s = .error e → e = .valueError) := by
  induction n with
  | zero =>
    intro s hs
    have : s = [] := by simpa using hs
    subst this
    exact ⟨⟨fun _ => .nil, fun _ => ⟨[], rfl⟩⟩, by simp [unescapeText]⟩
  | succ n ih =>
    intro s hs
    cases s with
    | nil => exact ⟨⟨fun _ => .nil, fun _ => ⟨[], rfl⟩⟩, by simp [unescapeText]⟩
    | cons c1 s =>
      simp only [List.length_cons] at hs
      by_cases h1 : c1 = '\\'
      · subst h1
        cases s with
        | nil =>
          rw [unescapeText_end]
          refine ⟨⟨by simp, fun h => ?_⟩, by simp⟩
          cases h with
          | plain _ _ hc => simp at hc
        | cons c2 s =>
          rw [unescapeText_esc]
          obtain ⟨i1, i2⟩ := ih s (by simp at hs; omega)
          cases hc : unescapeChar c2 with
          | error e =>
            simp only
            refine ⟨⟨by simp, fun h => ?_⟩, fun e' he' => ?_⟩
            · cases h with
              | plain _ _ hc' => simp at hc'
              | esc _ _ hc' =>
                obtain ⟨d, hd⟩ := (unescapeChar_ok c2).2 hc'
                rw [hc] at hd; simp at hd
            · rw [Except.error.injEq] at he'; subst he'; exact unescapeChar_err hc
          | ok d =>
            simp only
            refine ⟨⟨fun ⟨t, ht⟩ => ?_, fun h => ?_⟩, fun e he => ?_⟩
            · refine .esc _ _ ((unescapeChar_ok c2).1 ⟨d, hc⟩) (i1.1 ?_)
              cases hu : unescapeText s with
              | ok t' => exact ⟨t', rfl⟩
              | error e => rw [hu] at ht; simp [Except.map] at ht
            · cases h with
              | plain _ _ hc' => simp at hc'
              | esc _ _ _ hs' =>
                obtain ⟨t, ht⟩ := i1.2 hs'
                exact ⟨d :: t, by rw [ht]; rfl⟩
            · cases hu : unescapeText s with
              | ok t' => rw [hu] at he; simp [Except.map] at he
              | error e' => rw [hu] at he; simp [Except.map] at he; subst he; exact i2 _ hu
      · rw [unescapeText_plain h1]
        obtain ⟨i1, i2⟩ := ih s (by omega)
        split
        · rename_i hsp
          refine ⟨⟨by simp, fun h => ?_⟩, by simp⟩
          cases h with
          | plain _ _ hc => 
            simp only [List.mem_cons, List.not_mem_nil, or_false, not_or] at hc
            rcases hsp with h | h | h | h
            · exact absurd h hc.2.1
            · exact absurd h hc.2.2.1
            · exact absurd h hc.2.2.2.1
            · exact absurd h hc.2.2.2.2
          | esc => exact absurd rfl h1
        · rename_i hsp
          simp only [not_or] at hsp
          refine ⟨⟨fun ⟨t, ht⟩ => ?_, fun h => ?_⟩, fun e he => ?_⟩
          · refine .plain _ _ (by simp [h1, hsp.1, hsp.2.1, hsp.2.2.1, hsp.2.2.2]) (i1.1 ?_)
            cases hu : unescapeText s with
            | ok t' => exact ⟨t', rfl⟩
            | error e => rw [hu] at ht; simp [Except.map] at ht
          · cases h with
            | plain _ _ _ hs' =>
              obtain ⟨t, ht⟩ := i1.2 hs'
              exact ⟨c1 :: t, by rw [ht]; rfl⟩
            | esc => exact absurd rfl h1
          · cases hu : unescapeText s with
            | ok t' => rw [hu] at he; simp [Except.map] at he
            | error e' => rw [hu] at he; simp [Except.map] at he; subst he; exact i2 _ hu

/-! ### Lists -/

/-- Splitting character by character; `p`: odd number of backslashes at the end of `cur`. -/
def scanText (cur : Str) (p : Bool) : Str → Gen Str
  | [] => if p then .raise .valueError else .yield cur (.done [])
  | c :: s =>
    if c = ',' then
      if p then scanText (cur ++ [',']) false s else .yield cur (scanText [] false s)
    else scanText (cur ++ [c]) (if c = '\\' then !p else false) s

theorem splitComma_ne (s : Str) : ∃ g gs, splitComma s = g :: gs := by
  induction s with
  | nil => exact ⟨[], [], rfl⟩
  | cons c s ih =>
    obtain ⟨g, gs, h⟩ := ih
    rw [splitComma]
    split
    · exact ⟨_, _, rfl⟩
    · rw [h]; exact ⟨_, _, rfl⟩

theorem trailOdd_nil : trailOdd [] = false := rfl

theorem trailOdd_snoc {cur : Str} {c : Char} (hn : '\n' ∉ cur) (hc : c ≠ '\n') :
    trailOdd (cur ++ [c]) = if c = '\\' then !trailOdd cur else false := by
  have aux : ∀ v : Str, '\n' ∉ v → dropLf v.reverse = v.reverse := by
    intro v hv
    cases hr : v.reverse with
    | nil => rfl
    | cons x r =>
      have : x ≠ '\n' := by
        rintro rfl
        exact hv (by rw [← List.mem_reverse, hr]; simp)
      unfold dropLf
      split
      · rename_i r' h; simp only [List.cons.injEq] at h; exact absurd h.1 this
      · rfl
  simp only [trailOdd]
  rw [aux _ hn, aux _ (by simp [hn, Ne.symm hc])]
  simp only [List.reverse_append, List.reverse_cons, List.reverse_nil, List.nil_append, List.cons_append]
  by_cases h : c = '\\'
  · subst h
    simp only [List.takeWhile_cons, beq_self_eq_true, if_true, List.length_cons]
    generalize (List.takeWhile (fun x => x == '\\') cur.reverse).length = k
    rcases Nat.mod_two_eq_zero_or_one k with h | h <;> simp [Nat.add_mod, h]
  · rw [List.takeWhile_cons_of_neg (by simpa using h)]
    simp [h]

theorem splitTextFrom_scan (s : Str) : ∀ (cur : Str), '\n' ∉ cur → '\n' ∉ s →
    ∀ g gs, splitComma s = g :: gs → splitTextFrom (cur ++ g) gs = scanText cur (trailOdd cur) s := by
  induction s with
  | nil =>
    intro cur _ _ g gs h
    simp only [splitComma, List.cons.injEq] at h
    obtain ⟨rfl, rfl⟩ := h
    simp [splitTextFrom, scanText]
  | cons c s ih =>
    intro cur hcur hs g gs h
    simp only [List.mem_cons, not_or] at hs
    obtain ⟨g', gs', h'⟩ := splitComma_ne s
    rw [splitComma] at h
    split at h
    · rename_i hc
      subst hc
      simp only [List.cons.injEq] at h
      obtain ⟨rfl, rfl⟩ := h
      rw [h', List.append_nil, splitTextFrom, scanText, if_pos rfl]
      cases ht : trailOdd cur with
      | true =>
        have := ih (cur ++ [',']) (by simp [hcur]) hs.2 g' gs' h'
        rw [trailOdd_snoc hcur (by decide)] at this
        simpa using this
      | false =>
        have := ih [] (by simp) hs.2 g' gs' h'
        rw [trailOdd_nil] at this
        simp only [List.nil_append] at this
        simp [this]
    · rename_i hc
      rw [h'] at h
      simp only [List.cons.injEq] at h
      obtain ⟨rfl, rfl⟩ := h
      have := ih (cur ++ [c]) (by simp only [List.mem_append, List.mem_singleton, not_or]; exact ⟨hcur, hs.1⟩) hs.2 g' gs' h'
      rw [trailOdd_snoc hcur (Ne.symm hs.1)] at this
      rw [scanText, if_neg hc, ← this]
      simp

theorem splitTextList_scan (s : Str) (h : '\n' ∉ s) : splitTextList s = scanText [] false s := by
  obtain ⟨g, gs, hg⟩ := splitComma_ne s
  rw [splitTextList, hg]
  have := splitTextFrom_scan s [] (by simp) h g gs hg
  rw [trailOdd_nil] at this
  simpa using this

theorem scan_escapeChar (cur : Str) (c : Char) (t : Str) :
    scanText cur false (escapeTextChar c ++ t) = scanText (cur ++ escapeTextChar c) false t := by
  simp only [escapeTextChar]
  split
  · simp [scanText]
  · split
    · simp [scanText]
    · split
      · simp [scanText]
      · split
        · simp [scanText]
        · split
          · simp [scanText]
          · rename_i h1 h2 h3 h4 h5
            simp [scanText, h1, h3]

theorem scan_escape (s : Str) : ∀ (cur t : Str),
    scanText cur false (escapeText s ++ t) = scanText (cur ++ escapeText s) false t := by
  induction s with
  | nil => intro cur t; simp [escapeText]
  | cons c s ih =>
    intro cur t
    rw [escapeText, List.flatMap_cons, List.append_assoc, scan_escapeChar]
    rw [escapeText] at ih
    rw [ih]; simp

theorem scan_join (vs : List Str) (h : vs ≠ []) :
    scanText [] false (joinComma (vs.map escapeText)) = Gen.done (vs.map escapeText) := by
  induction vs with
  | nil => exact absurd rfl h
  | cons v vs ih =>
    cases vs with
    | nil =>
      have := scan_escape v [] []
      simp only [List.append_nil, List.nil_append] at this
      simp only [List.map_cons, List.map_nil, joinComma]
      rw [this]; simp [scanText, Gen.yield, Gen.done]
    | cons w vs =>
      have := ih (by simp)
      simp only [List.map_cons, joinComma] at this ⊢
      rw [scan_escape, List.nil_append, scanText, if_pos rfl]
      simp only [Bool.false_eq_true, if_false]
      rw [this]; rfl

theorem joinComma_no_nl (vs : List Str) (h : ∀ v ∈ vs, '\n' ∉ v) : '\n' ∉ joinComma vs := by
  induction vs with
  | nil => simp [joinComma]
  | cons v vs ih =>
    cases vs with
    | nil => exact h v (by simp)
    | cons w vs =>
      simp only [joinComma, List.mem_append, List.mem_cons, not_or]
      exact ⟨h v (by simp), by decide, ih fun x hx => h x (List.mem_cons_of_mem _ hx)⟩

theorem joinComma_cons (g : Str) (gs : List Str) (h : gs ≠ []) : joinComma (g :: gs) = g ++ ',' :: joinComma gs := by
  cases gs with
  | nil => exact absurd rfl h
  | cons => rfl

theorem splitTextFrom_join (gs : List Str) : ∀ val : Str,
    ((splitTextFrom val gs).err = none → joinComma (splitTextFrom val gs).items = joinComma (val :: gs)) ∧
    (∀ e, (splitTextFrom val gs).err = some e → e = .valueError) ∧
    ((splitTextFrom val gs).err = none → (splitTextFrom val gs).items ≠ []) := by
  induction gs with
  | nil =>
    intro val
    rw [splitTextFrom]
    split
    · simp [Gen.raise]
    · simp [Gen.yield, Gen.done]
  | cons g gs ih =>
    intro val
    rw [splitTextFrom]
    split
    · obtain ⟨h1, h2, h3⟩ := ih (val ++ ',' :: g)
      refine ⟨fun h => ?_, h2, h3⟩
      rw [h1 h]
      cases gs with
      | nil => simp [joinComma]
      | cons => simp [joinComma]
    · obtain ⟨h1, h2, h3⟩ := ih g
      simp only [Gen.yield]
      refine ⟨fun h => ?_, h2, by simp⟩
      rw [joinComma_cons _ _ (h3 h), h1 h]; rfl

theorem splitComma_no_comma (s : Str) : ∀ t ∈ splitComma s, ',' ∉ t := by
  induction s with
  | nil => simp [splitComma]
  | cons c s ih =>
    rw [splitComma]
    split
    · intro t ht
      rcases List.mem_cons.1 ht with rfl | ht
      · simp
      · exact ih t ht
    · rename_i hc
      obtain ⟨g, gs, hg⟩ := splitComma_ne s
      rw [hg] at ih ⊢
      intro t ht
      rcases List.mem_cons.1 ht with rfl | ht
      · simp only [List.mem_cons, not_or]
        exact ⟨Ne.symm hc, ih g List.mem_cons_self⟩
      · exact ih t (List.mem_cons_of_mem _ ht)

theorem joinComma_split (s : Str) : joinComma (splitComma s) = s := by
  induction s with
  | nil => rfl
  | cons c s ih =>
    obtain ⟨g, gs, h⟩ := splitComma_ne s
    rw [splitComma]
    split
    · rename_i hc; rw [joinComma_cons _ _ (by rw [h]; simp), ih, hc]; rfl
    · rw [h] at ih ⊢
      cases gs with
      | nil => simp only [joinComma] at ih ⊢; rw [ih]
      | cons => simp only [joinComma] at ih ⊢; rw [← ih]; rfl

end Ics
