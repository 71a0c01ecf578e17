import Verif.Model.Parser
import Verif.Spec.Lines
import Mathlib.Data.List.Basic
import Mathlib.Tactic.Common

namespace Ics

/-! ### The wrapping loop -/

theorem takeFitting_flatten (w : Nat) (cs : List Str) : ∀ cur,
    (takeFitting w cur cs).1 ++ (takeFitting w cur cs).2.flatten = cur ++ cs.flatten := by
  induction cs with
  | nil => intro cur; simp [takeFitting]
  | cons c cs ih =>
    intro cur
    simp only [takeFitting]
    split
    · rw [ih]; simp
    · simp

theorem takeFitting_len (w : Nat) (cs : List Str) : ∀ cur, cur.length ≤ w →
    (takeFitting w cur cs).1.length ≤ w := by
  induction cs with
  | nil => intro cur h; simpa [takeFitting] using h
  | cons c cs ih =>
    intro cur h
    simp only [takeFitting]
    split
    · apply ih; simp; omega
    · exact h

/-- Either nothing was taken, or at least one chunk was. -/
theorem takeFitting_progress (w : Nat) (c : Str) (cs : List Str) :
    (takeFitting w [] (c :: cs) = ([], c :: cs) ∧ w < c.length) ∨
      ((takeFitting w [] (c :: cs)).2.length < (c :: cs).length ∧ c.length ≤ w ∧
        ∃ t, (takeFitting w [] (c :: cs)).1 = c ++ t) := by
  have aux : ∀ (cs : List Str) (cur : Str), (takeFitting w cur cs).2.length ≤ cs.length ∧
      ∃ t, (takeFitting w cur cs).1 = cur ++ t := by
    intro cs
    induction cs with
    | nil => intro cur; exact ⟨by simp [takeFitting], [], by simp [takeFitting]⟩
    | cons c cs ih =>
      intro cur
      simp only [takeFitting]
      split
      · obtain ⟨h1, t, h2⟩ := ih (cur ++ c)
        exact ⟨by simp; omega, c ++ t, by rw [h2]; simp⟩
      · exact ⟨by simp, [], by simp⟩
  simp only [takeFitting, List.length_nil, Nat.zero_add, List.nil_append]
  split
  · right
    obtain ⟨h1, t, h2⟩ := aux cs c
    exact ⟨by simp; omega, by assumption, t, h2⟩
  · left; exact ⟨rfl, by omega⟩

theorem rfindHyphen_lt {chunk : Str} {n h : Nat} (he : rfindHyphen chunk n = some h) : h < n := by
  simp only [rfindHyphen, Option.map_eq_some_iff] at he
  obtain ⟨i, hi, rfl⟩ := he
  have hlen : (chunk.take n).length ≤ n := by simp only [List.length_take]; omega
  have : 0 < (chunk.take n).length := by
    cases hc : chunk.take n with
    | nil => rw [hc] at hi; simp [List.idxOf?] at hi
    | cons => simp
  omega

theorem longWordEnd_le (chunk : Str) (k w : Nat) :
    longWordEnd chunk k w ≤ (if w < 1 then 1 else w - k) := by
  simp only [longWordEnd]
  generalize (if w < 1 then 1 else w - k) = sl
  split
  · split
    · rename_i h hh
      split
      · exact rfindHyphen_lt hh
      · exact Nat.le_refl _
    · exact Nat.le_refl _
  · exact Nat.le_refl _

theorem longWordEnd_pos (chunk : Str) (w : Nat) : 1 ≤ longWordEnd chunk 0 w := by
  simp only [longWordEnd, Nat.sub_zero]
  have : 1 ≤ (if w < 1 then 1 else w) := by split <;> omega
  generalize (if w < 1 then 1 else w) = sl at *
  split
  · split
    · split <;> omega
    · exact this
  · exact this

/-- Termination measure of the outer loop. -/
def wmeasure (cs : List Str) : Nat := cs.flatten.length + cs.length

theorem wrapStep_spec (w : Nat) (c : Str) (cs : List Str) :
    (wrapStep w (c :: cs)).1 ++ (wrapStep w (c :: cs)).2.flatten = (c :: cs).flatten ∧
    (wrapStep w (c :: cs)).1.length ≤ max w 1 ∧
    (c ≠ [] → wmeasure (wrapStep w (c :: cs)).2 < wmeasure (c :: cs)) ∧
    (c = [] → wmeasure (wrapStep w (c :: cs)).2 < wmeasure (c :: cs)) ∧
    (c ≠ [] → (wrapStep w (c :: cs)).1 ≠ []) := by
  have hf := takeFitting_flatten w (c :: cs) []
  have hl := takeFitting_len w (c :: cs) [] (by simp)
  have hp := takeFitting_progress w c cs
  simp only [wrapStep]
  cases ht : takeFitting w [] (c :: cs) with
  | mk cur rest =>
    rw [ht] at hf hl hp
    simp only [List.nil_append] at hf hl hp
    have hflen := congrArg List.length hf
    simp only [List.length_append] at hflen
    cases rest with
    | nil =>
      rcases hp with ⟨h1, _⟩ | ⟨_, _, t, h3⟩
      · simp at h1
      · simp only [List.flatten_nil, List.append_nil] at hf ⊢
        refine ⟨hf, by omega, ?_, ?_, ?_⟩
        · intro _; simp only [wmeasure, List.flatten_nil, List.length_nil, List.length_cons]; omega
        · intro _; simp only [wmeasure, List.flatten_nil, List.length_nil, List.length_cons]; omega
        · intro hc; rw [h3]; simp [hc]
    | cons c' cs' =>
      dsimp only
      split
      · rename_i hlong
        have hle := longWordEnd_le c' cur.length w
        refine ⟨?_, ?_, ?_, ?_, ?_⟩
        · simp only [List.flatten_cons] at hf ⊢
          rw [← hf]
          simp only [List.append_assoc]
          rw [← List.append_assoc (List.take _ _), List.take_append_drop]
        · have h1 : (c'.take (longWordEnd c' cur.length w)).length ≤ longWordEnd c' cur.length w := by simp only [List.length_take]; omega
          simp only [List.length_append]
          split at hle
          · have : w = 0 := by omega
            have : cur.length = 0 := by omega
            omega
          · omega
        · intro hc
          rcases hp with ⟨h1, h2⟩ | ⟨h1, _, t, h3⟩
          · simp only [Prod.mk.injEq, List.cons.injEq] at h1
            obtain ⟨rfl, rfl, rfl⟩ := h1
            have := longWordEnd_pos c' w
            have hc' : 0 < c'.length := List.length_pos_of_ne_nil hc
            simp only [List.length_nil, wmeasure, List.flatten_cons, List.length_append, List.length_drop, List.length_cons]
            omega
          · simp only [wmeasure, List.flatten_cons, List.length_append, List.length_drop, List.length_cons] at *
            omega
        · intro hc
          rcases hp with ⟨h1, h2⟩ | ⟨h1, _, t, h3⟩
          · rw [hc] at h2; simp at h2
          · simp only [wmeasure, List.flatten_cons, List.length_append, List.length_drop, List.length_cons] at *
            omega
        · intro hc
          rcases hp with ⟨h1, h2⟩ | ⟨_, _, t, h3⟩
          · simp only [Prod.mk.injEq, List.cons.injEq] at h1
            obtain ⟨rfl, rfl, rfl⟩ := h1
            have := longWordEnd_pos c' w
            have hc' : 0 < c'.length := List.length_pos_of_ne_nil hc
            simp only [List.length_nil, List.nil_append]
            intro h0
            have := congrArg List.length h0
            simp only [List.length_take, List.length_nil] at this; omega
          · rw [h3]; simp [hc]
      · rename_i hshort
        refine ⟨hf, by dsimp only; omega, ?_, ?_, ?_⟩
        · intro hc
          rcases hp with ⟨h1, h2⟩ | ⟨h1, _, t, h3⟩
          · simp only [Prod.mk.injEq, List.cons.injEq] at h1
            obtain ⟨_, rfl, _⟩ := h1
            omega
          · simp only [wmeasure, List.flatten_cons, List.length_append, List.length_cons] at *
            omega
        · intro hc
          rcases hp with ⟨h1, h2⟩ | ⟨h1, _, t, h3⟩
          · rw [hc] at h2; simp at h2
          · simp only [wmeasure, List.flatten_cons, List.length_append, List.length_cons] at *
            omega
        · intro hc
          rcases hp with ⟨h1, h2⟩ | ⟨_, _, t, h3⟩
          · simp only [Prod.mk.injEq, List.cons.injEq] at h1
            obtain ⟨_, rfl, _⟩ := h1
            omega
          · rw [h3]; simp [hc]

theorem wrapLoop_rest (W : Nat) (fuel : Nat) : ∀ cs : List Str, wmeasure cs < fuel →
    ∃ segs : List Str, wrapLoop W fuel false cs = .ok (segs.map (' ' :: ·)) ∧ segs.flatten = cs.flatten ∧
      ∀ s ∈ segs, s.length ≤ max (W - 1) 1 := by
  induction fuel with
  | zero => intro cs h; omega
  | succ fuel ih =>
    intro cs h
    cases cs with
    | nil => exact ⟨[], rfl, rfl, by simp⟩
    | cons c cs =>
      obtain ⟨h1, h2, h3, h4, -⟩ := wrapStep_spec (W - 1) c cs
      have hm : wmeasure (wrapStep (W - 1) (c :: cs)).2 < wmeasure (c :: cs) := by
        by_cases hc : c = []
        · exact h4 hc
        · exact h3 hc
      obtain ⟨segs, hs, hf, hl⟩ := ih (wrapStep (W - 1) (c :: cs)).2 (by omega)
      refine ⟨(wrapStep (W - 1) (c :: cs)).1 :: segs, ?_, ?_, ?_⟩
      · simp only [wrapLoop, Bool.false_eq_true, if_false, List.length_cons, List.length_nil, Nat.zero_add]
        rw [hs]; simp [Except.map]
      · simp only [List.flatten_cons] at h1 ⊢; rw [hf, h1]
      · intro s hs'
        rcases List.mem_cons.1 hs' with rfl | hs'
        · exact h2
        · exact hl s hs'

/-- Wrapping never fails for a positive width; the pieces, without the added spaces, are a
decomposition of the text. -/
theorem wrapChunks_spec (W : Nat) (hW : 1 ≤ W) (c : Str) (cs : List Str) (hc : c ≠ []) :
    ∃ (s0 : Str) (segs : List Str), wrapChunks W (c :: cs) = .ok (s0 :: segs.map (' ' :: ·)) ∧
      s0 ++ segs.flatten = (c :: cs).flatten ∧ s0 ≠ [] ∧ s0.length ≤ W ∧
      ∀ s ∈ segs, s.length ≤ max (W - 1) 1 := by
  obtain ⟨h1, h2, h3, -, h5⟩ := wrapStep_spec W c cs
  obtain ⟨segs, hs, hf, hl⟩ := wrapLoop_rest W (wmeasure (c :: cs)) (wrapStep W (c :: cs)).2 (h3 hc)
  refine ⟨(wrapStep W (c :: cs)).1, segs, ?_, by rw [hf, h1], h5 hc, by omega, hl⟩
  rw [wrapChunks, if_neg (by omega)]
  change wrapLoop W (wmeasure (c :: cs) + 1) true (c :: cs) = _
  simp only [wrapLoop, if_true, List.length_nil, Nat.sub_zero, List.nil_append]
  rw [hs]; simp [Except.map]

theorem wrap_spec (ch : Chunker) (W : Nat) (hW : 1 ≤ W) (t : Str) (ht : t ≠ []) :
    ∃ (s0 : Str) (segs : List Str), wrap ch W t = .ok (s0 :: segs.map (' ' :: ·)) ∧
      s0 ++ segs.flatten = t ∧ s0 ≠ [] ∧ s0.length ≤ W ∧
      ∀ s ∈ segs, s.length ≤ max (W - 1) 1 := by
  have hf := ch.flatten_split t
  have hn := ch.ne_nil t
  cases hs : ch.split t with
  | nil => rw [hs] at hf; simp at hf; exact absurd hf ht
  | cons c cs =>
    rw [hs] at hf hn
    have := wrapChunks_spec W hW c cs (hn c (by simp))
    rw [hf] at this
    rw [wrap, hs]; exact this

theorem takeFitting_all (w : Nat) (cs : List Str) : ∀ cur : Str, cur.length + cs.flatten.length ≤ w →
    takeFitting w cur cs = (cur ++ cs.flatten, []) := by
  induction cs with
  | nil => intro cur _; simp [takeFitting]
  | cons c cs ih =>
    intro cur h
    simp only [List.flatten_cons, List.length_append] at h
    rw [takeFitting, if_pos (by omega), ih _ (by simp only [List.length_append]; omega)]; simp

/-- A text that fits on one line is left alone. -/
theorem wrap_short (ch : Chunker) (W : Nat) (t : Str) (ht : t ≠ []) (h : t.length ≤ W) :
    wrap ch W t = .ok [t] := by
  have hf := ch.flatten_split t
  have hl : 0 < t.length := List.length_pos_of_ne_nil ht
  cases hs : ch.split t with
  | nil => rw [hs] at hf; simp at hf; exact absurd hf ht
  | cons c cs =>
    rw [hs] at hf
    rw [wrap, hs, wrapChunks, if_neg (by omega)]
    simp only [wrapLoop, if_true, List.length_nil, Nat.sub_zero, List.nil_append, wrapStep]
    rw [takeFitting_all _ _ _ (by rw [hf]; simpa using h)]
    simp [wrapLoop, Except.map, ← hf]

/-! ### Unfolding -/

theorem isNl_false_of {s : Str} (h : ∀ c ∈ s, isNl c = false) : s.any isNl = false := by simpa using h

theorem rstripNl_id {s : Str} (h : ∀ c ∈ s, isNl c = false) : rstripNl s = s := by
  rw [rstripNl]
  cases hs : s.reverse with
  | nil => simp at hs; simp [hs]
  | cons x xs =>
    have hx : isNl x = false := h x (by rw [← List.mem_reverse, hs]; simp)
    rw [List.dropWhile_cons_of_neg (by simp [hx]), ← hs, List.reverse_reverse]

theorem rstripNl_idem (s : Str) : rstripNl (rstripNl s) = rstripNl s := by
  have aux : ∀ l : Str, List.dropWhile isNl (List.dropWhile isNl l) = List.dropWhile isNl l := by
    intro l
    induction l with
    | nil => rfl
    | cons x l ih =>
      simp only [List.dropWhile_cons]
      split
      · exact ih
      · rename_i h; rw [List.dropWhile_cons_of_neg h]
  simp [rstripNl, aux]

theorem rstripNl_append_nl {s e : Str} (hs : ∀ c ∈ s, isNl c = false) (he : ∀ c ∈ e, isNl c = true) :
    rstripNl (s ++ e) = s := by
  rw [rstripNl, List.reverse_append, List.dropWhile_append_of_pos (by simpa using he)]
  exact rstripNl_id hs

/-- Blank lines and trailing line breaks do not matter. -/
theorem unfoldFrom_strip (ls : List Str) : ∀ cur,
    unfoldFrom cur ls = unfoldFrom cur ((ls.map rstripNl).filter (!·.isEmpty)) := by
  induction ls with
  | nil => intro cur; rfl
  | cons l ls ih =>
    intro cur
    simp only [List.map_cons]
    by_cases he : (rstripNl l).isEmpty = true
    · rw [List.filter_cons_of_neg (by simpa using he), ← ih]
      simp [unfoldFrom, he]
    · rw [List.filter_cons_of_pos (by simpa using he)]
      simp only [unfoldFrom, rstripNl_idem, ← ih]

theorem unfold_segs (segs : List (Char × Str)) (rest : List Str) : ∀ c : Str,
    (∀ s ∈ segs, (s.1 = ' ' ∨ s.1 = '\t') ∧ ∀ x ∈ s.2, isNl x = false) →
    unfoldFrom (some c) (segs.map (fun s => s.1 :: s.2) ++ rest) =
      unfoldFrom (some (c ++ (segs.map Prod.snd).flatten)) rest := by
  induction segs with
  | nil => intro c _; simp
  | cons s segs ih =>
    intro c h
    obtain ⟨ch, s⟩ := s
    have hs := h (ch, s) (by simp)
    have hnl : ∀ x ∈ ch :: s, isNl x = false := by
      intro x hx
      rcases List.mem_cons.1 hx with rfl | hx
      · rcases hs.1 with h | h <;> simp only at h <;> subst h <;> decide
      · exact hs.2 x hx
    have hst : startsFold (ch :: s) = true := by
      simp only [startsFold]; rcases hs.1 with h | h <;> simp only at h <;> subst h <;> decide
    simp only [List.map_cons, List.cons_append, unfoldFrom, rstripNl_id hnl, List.isEmpty_cons,
      Bool.false_eq_true, if_false, isNl_false_of hnl, hst, if_true, List.drop_succ_cons, List.drop_zero]
    rw [ih]
    · simp
    · intro s' hs'; exact h s' (List.mem_cons_of_mem _ hs')

/-- A logical line of a document. -/
structure LogicalOk (l : Str) : Prop where
  nonl : ∀ c ∈ l, isNl c = false
  nofold : startsFold l = false

theorem startsFold_append {a b : Str} (h : a ≠ []) : startsFold (a ++ b) = startsFold a := by
  cases a with
  | nil => exact absurd rfl h
  | cons x a => rfl

theorem unfold_doc_from (doc : List (Str × List Str)) : ∀ cur : Option Str,
    (∀ p ∈ doc, FoldedAs p.1 p.2 ∧ LogicalOk p.1) →
    unfoldFrom cur (doc.flatMap Prod.snd) = ⟨cur.toList ++ doc.map Prod.fst, none⟩ := by
  induction doc with
  | nil => intro cur _; simp [unfoldFrom]
  | cons p doc ih =>
    intro cur h
    obtain ⟨l, ps⟩ := p
    obtain ⟨⟨s0, segs, hl, hne, hps, hsp⟩, hok⟩ := h (l, ps) (by simp)
    simp only at hl hps
    have hnl0 : ∀ c ∈ s0, isNl c = false := fun c hc => hok.nonl c (by simp only; rw [hl]; simp [hc])
    have hsegs : ∀ s ∈ segs, (s.1 = ' ' ∨ s.1 = '\t') ∧ ∀ x ∈ s.2, isNl x = false := by
      intro s hs
      refine ⟨hsp s hs, fun x hx => hok.nonl x ?_⟩
      simp only; rw [hl]
      simp only [List.mem_append, List.mem_flatten, List.mem_map]
      exact Or.inr ⟨s.2, ⟨s, hs, rfl⟩, hx⟩
    have hst : startsFold s0 = false := by
      have := hok.nofold; simp only at this; rw [hl, startsFold_append hne] at this; exact this
    have hemp : s0.isEmpty = false := by simpa using hne
    have hrec : ∀ q ∈ doc, FoldedAs q.1 q.2 ∧ LogicalOk q.1 := fun q hq => h q (List.mem_cons_of_mem _ hq)
    simp only [List.flatMap_cons, hps, List.cons_append]
    cases cur with
    | none =>
      simp only [unfoldFrom, rstripNl_id hnl0, hemp, Bool.false_eq_true, if_false, isNl_false_of hnl0, hst]
      rw [unfold_segs _ _ _ hsegs, ih _ hrec, ← hl]
      simp
    | some c =>
      simp only [unfoldFrom, rstripNl_id hnl0, hemp, Bool.false_eq_true, if_false, isNl_false_of hnl0, hst]
      rw [unfold_segs _ _ _ hsegs, ih _ hrec, ← hl]
      simp [Gen.yield]

theorem unfold_doc (doc : List (Str × List Str)) (h : ∀ p ∈ doc, FoldedAs p.1 p.2 ∧ LogicalOk p.1) :
    unfoldLines (doc.flatMap Prod.snd) = Gen.done (doc.map Prod.fst) := by
  rw [unfoldLines, unfold_doc_from _ _ h]; rfl

/-! ### Splitting into lines -/

theorem splitLines_plain (l : Str) : ∀ (cur rest : Str), (∀ c ∈ l, isNl c = false) →
    splitLines cur (l ++ rest) = splitLines (l.reverse ++ cur) rest := by
  induction l with
  | nil => intro cur rest _; rfl
  | cons x l ih =>
    intro cur rest h
    have hx : isNl x = false := h x (by simp)
    have h1 : x ≠ '\r' := by rintro rfl; exact absurd hx (by decide)
    have h2 : x ≠ '\n' := by rintro rfl; exact absurd hx (by decide)
    rw [List.cons_append, splitLines.eq_5 _ _ _ (by intro s' hx'; exact absurd hx' h1) h1 h2, ih]
    · simp
    · intro c hc; exact h c (List.mem_cons_of_mem _ hc)

theorem splitLines_cr {cur s : Str} (h : s.head? ≠ some '\n') :
    splitLines cur ('\r' :: s) = cur.reverse :: splitLines [] s := by
  cases s with
  | nil => simp [splitLines]
  | cons x s =>
    have : x ≠ '\n' := by simpa using h
    rw [splitLines.eq_3]
    rintro s' h'
    simp only [List.cons.injEq] at h'
    exact this h'.1

theorem splitLines_join (n : Nat) : ∀ (ls : List (Str × Eol)) (last : Str), ls.length ≤ n →
    (∀ p ∈ ls, ∀ c ∈ p.1, isNl c = false) → (∀ c ∈ last, isNl c = false) →
    (splitLines [] (joinEol ls last)).filter (!·.isEmpty) =
      (ls.map Prod.fst ++ [last]).filter (!·.isEmpty) := by
  induction n with
  | zero =>
    intro ls last hn _ hlast
    have : ls = [] := by simpa using hn
    subst this
    have := splitLines_plain last [] [] hlast
    simp [joinEol] at this ⊢
    rw [this]; simp [splitLines]
  | succ n ih =>
    intro ls last hn hls hlast
    cases ls with
    | nil =>
      have := splitLines_plain last [] [] hlast
      simp [joinEol] at this ⊢
      rw [this]; simp [splitLines]
    | cons p ls =>
      obtain ⟨l, e⟩ := p
      have hl := hls (l, e) (by simp)
      have hls' : ∀ p ∈ ls, ∀ c ∈ p.1, isNl c = false := fun p hp => hls p (List.mem_cons_of_mem _ hp)
      have hn' : ls.length ≤ n := by simpa using hn
      have e0 : joinEol ((l, e) :: ls) last = l ++ (e.text ++ joinEol ls last) := by simp [joinEol]
      rw [e0, splitLines_plain l _ _ hl, List.append_nil]
      have key : splitLines l.reverse (e.text ++ joinEol ls last) = l :: splitLines [] (joinEol ls last) ∨
          ∃ ls', ls = ([], .lf) :: ls' ∧ splitLines l.reverse (e.text ++ joinEol ls last) = l :: splitLines [] (joinEol ls' last) := by
        cases e with
        | crlf => left; simp [Eol.text, splitLines]
        | lf => left; simp [Eol.text, splitLines]
        | cr =>
          simp only [Eol.text, List.cons_append, List.nil_append]
          by_cases hh : (joinEol ls last).head? = some '\n'
          · right
            cases ls with
            | nil =>
              simp only [joinEol, List.flatMap_nil, List.nil_append] at hh
              have := hlast '\n' (List.mem_of_mem_head? hh)
              exact absurd this (by decide)
            | cons q ls' =>
              obtain ⟨l', e'⟩ := q
              have hl'e : l' = [] := by
                cases l' with
                | nil => rfl
                | cons x l' =>
                  simp [joinEol] at hh
                  subst hh
                  exact absurd (hls' ('\n' :: l', e') (by simp) '\n' (by simp)) (by decide)
              subst hl'e
              cases e' with
              | crlf => simp [joinEol, Eol.text] at hh
              | cr => simp [joinEol, Eol.text] at hh
              | lf =>
                refine ⟨ls', rfl, ?_⟩
                simp [joinEol, Eol.text, splitLines]
          · left
            rw [splitLines_cr hh, List.reverse_reverse]
      rcases key with h | ⟨ls', rfl, h⟩
      · rw [h]
        have := ih ls last hn' hls' hlast
        simp only [List.map_cons, List.cons_append, List.filter_cons] at this ⊢
        rw [this]
      · rw [h]
        have := ih ls' last (by simp at hn'; omega) (fun p hp => hls' p (List.mem_cons_of_mem _ hp)) hlast
        simp only [List.map_cons, List.cons_append, List.filter_cons] at this ⊢
        rw [this]; simp

end Ics
