import Verif.Proofs.Tree
import Verif.Proofs.Component

/-!
`ContentLine.serialize`, which wraps the text together with the line break at its end.
-/
namespace Ics

/-- The lines of a text that are not empty. -/
def fullLines (txt : Str) : List Str := (splitLines [] txt).filter (!·.isEmpty)

theorem splitLines_nl {n : Char} (hn : isNl n = true) (cur X : Str) :
    (splitLines cur (n :: X)).filter (!·.isEmpty) = [cur.reverse].filter (!·.isEmpty) ++ fullLines X := by
  have : n = '\r' ∨ n = '\n' := by simpa [isNl] using hn
  rcases this with rfl | rfl
  · by_cases hh : X.head? = some '\n'
    · cases X with
      | nil => cases hh
      | cons x X =>
        injection hh with hh
        subst hh
        unfold fullLines
        rw [splitLines, splitLines, ← List.singleton_append, List.filter_append]
        rfl
    · rw [splitLines_cr hh, ← List.singleton_append, List.filter_append]
      rfl
  · rw [splitLines, ← List.singleton_append, List.filter_append]
    rfl

theorem splitLines_between {n : Char} (hn : isNl n = true) (A cur X : Str) :
    (splitLines cur (A ++ n :: X)).filter (!·.isEmpty) = (splitLines cur A).filter (!·.isEmpty) ++ fullLines X := by
  induction A generalizing cur with
  | nil =>
    rw [List.nil_append, splitLines_nl hn, splitLines]
  | cons c A ih =>
    rw [List.cons_append]
    by_cases hc : isNl c = true
    · rw [splitLines_nl hc, splitLines_nl hc, List.append_assoc]
      congr 1
      exact ih []
    · have h1 : ∀ x ∈ [c], isNl x = false := by
        intro x hx
        rw [List.mem_singleton.1 hx]
        exact Bool.eq_false_iff.2 hc
      have e1 := splitLines_plain [c] cur (A ++ n :: X) h1
      have e2 := splitLines_plain [c] cur A h1
      rw [List.singleton_append] at e1 e2
      rw [e1, e2]
      exact ih _

theorem fullLines_between {n : Char} (hn : isNl n = true) (A X : Str) :
    fullLines (A ++ n :: X) = fullLines A ++ fullLines X := splitLines_between hn A [] X

theorem fullLines_nil : fullLines [] = [] := rfl

/-- A text that ends with a line break, and another one. -/
theorem fullLines_append {n : Char} (hn : isNl n = true) {A B : Str} (h : A.getLast? = some n) :
    fullLines (A ++ B) = fullLines A ++ fullLines B := by
  obtain ⟨ys, rfl⟩ := List.getLast?_eq_some_iff.1 h
  rw [List.append_assoc, List.singleton_append, fullLines_between hn, fullLines_between hn, fullLines_nil,
    List.append_nil]

theorem fullLines_join (ps : List Str) : fullLines (joinCrlf ps) = ps.flatMap fullLines := by
  induction ps with
  | nil => rfl
  | cons p ps ih =>
    cases ps with
    | nil => simp only [joinCrlf, List.flatMap_cons, List.flatMap_nil, List.append_nil]
    | cons q ps =>
      have e : joinCrlf (p :: q :: ps) = p ++ '\r' :: ([] ++ '\n' :: joinCrlf (q :: ps)) := by
        rw [joinCrlf, List.append_assoc]
        · rfl
        · exact fun h => List.cons_ne_nil _ _ h
      rw [e, fullLines_between (by decide), fullLines_between (by decide), fullLines_nil, List.nil_append, ih,
        List.flatMap_cons (x := p)]

theorem fullLines_breaks {b : Str} (hb : ∀ c ∈ b, isNl c = true) : fullLines b = [] := by
  induction b with
  | nil => rfl
  | cons c b ih =>
    have := fullLines_between (hb c List.mem_cons_self) [] b
    rw [List.nil_append] at this
    rw [this, ih fun x hx => hb x (List.mem_cons_of_mem _ hx)]
    rfl

theorem fullLines_line {l b : Str} (hl : ∀ c ∈ l, isNl c = false) (h0 : l ≠ []) (hb : ∀ c ∈ b, isNl c = true) :
    fullLines (l ++ b) = [l] := by
  have h1 : fullLines l = [l] := by
    have := splitLines_plain l [] [] hl
    rw [List.append_nil, List.append_nil, splitLines, List.reverse_reverse] at this
    unfold fullLines
    rw [this, List.filter_cons_of_pos]
    · rfl
    · cases l with
      | nil => exact absurd rfl h0
      | cons _ _ => rfl
  cases b with
  | nil => rw [List.append_nil, h1]
  | cons c b =>
    rw [fullLines_between (hb c List.mem_cons_self), h1, fullLines_breaks fun x hx => hb x (List.mem_cons_of_mem _ hx)]
    rfl

theorem folded_breaks_rest (segs : List (Char × Str)) : ∀ (t b : Str), (segs.map Prod.snd).flatten = t ++ b →
    (∀ c ∈ t, isNl c = false) → (∀ c ∈ b, isNl c = true) → (∀ s ∈ segs, s.1 = ' ' ∨ s.1 = '\t') →
    ∃ segs' : List (Char × Str), t = (segs'.map Prod.snd).flatten ∧
      (segs.map fun s => s.1 :: s.2).flatMap fullLines = segs'.map (fun s => s.1 :: s.2) ∧
      ∀ s ∈ segs', s.1 = ' ' ∨ s.1 = '\t' := by
  induction segs with
  | nil =>
    intro t b h _ _ _
    obtain ⟨rfl, rfl⟩ := List.append_eq_nil_iff.1 h.symm
    exact ⟨[], rfl, rfl, fun _ h => absurd h List.not_mem_nil⟩
  | cons x segs ih =>
    intro t b h ht hb hs
    obtain ⟨x, s⟩ := x
    have hx : x = ' ' ∨ x = '\t' := hs _ List.mem_cons_self
    have hx' : isNl x = false := by rcases hx with rfl | rfl <;> decide
    have hs' : ∀ s ∈ segs, s.1 = ' ' ∨ s.1 = '\t' := fun s h => hs s (List.mem_cons_of_mem _ h)
    have one : ∀ u b', (∀ c ∈ u, isNl c = false) → (∀ c ∈ b', isNl c = true) → fullLines (x :: (u ++ b')) = [x :: u] := by
      intro u b' hu hb'
      rw [← List.cons_append]
      refine fullLines_line (fun c hc => ?_) (List.cons_ne_nil _ _) hb'
      rcases List.mem_cons.1 hc with rfl | hc
      · exact hx'
      · exact hu c hc
    rw [List.map_cons, List.flatten_cons] at h
    rcases List.append_eq_append_iff.1 h with ⟨t', h1, h2⟩ | ⟨b', h1, h2⟩
    · subst h1
      obtain ⟨segs', e1, e2, e3⟩ := ih t' b h2 (fun c hc => ht c (List.mem_append_right _ hc)) hb hs'
      refine ⟨(x, s) :: segs', by rw [List.map_cons, List.flatten_cons, ← e1], ?_, fun y hy => ?_⟩
      · have := one s [] (fun c hc => ht c (List.mem_append_left _ hc)) (fun c hc => absurd hc List.not_mem_nil)
        rw [List.append_nil] at this
        rw [List.map_cons, List.flatMap_cons, this, e2]
        rfl
      · rcases List.mem_cons.1 hy with rfl | hy
        · exact hx
        · exact e3 y hy
    · subst h2
      dsimp only at h1
      subst h1
      obtain ⟨segs', e1, e2, e3⟩ := ih [] _ rfl (fun c hc => absurd hc List.not_mem_nil)
        (fun c hc => hb c (List.mem_append_right _ hc)) hs'
      refine ⟨(x, t) :: segs', by rw [List.map_cons, List.flatten_cons, ← e1, List.append_nil], ?_, fun y hy => ?_⟩
      · rw [List.map_cons, List.flatMap_cons, one t b' ht fun c hc => hb c (List.mem_append_left _ hc), e2]
        rfl
      · rcases List.mem_cons.1 hy with rfl | hy
        · exact hx
        · exact e3 y hy

/-- The lines of a folded text with line breaks at its end are the text folded. -/
theorem folded_breaks {t b : Str} {ps : List Str} (h : FoldedAs (t ++ b) ps) (h0 : t ≠ [])
    (ht : ∀ c ∈ t, isNl c = false) (hb : ∀ c ∈ b, isNl c = true) : FoldedAs t (ps.flatMap fullLines) := by
  obtain ⟨s0, segs, e, hs0, rfl, hs⟩ := h.ex
  rcases List.append_eq_append_iff.1 e.symm with ⟨t', h1, h2⟩ | ⟨b', h1, h2⟩
  · subst h1
    obtain ⟨segs', e1, e2, e3⟩ := folded_breaks_rest segs t' b h2 (fun c hc => ht c (List.mem_append_right _ hc)) hb hs
    refine ⟨⟨s0, segs', by rw [← e1], hs0, ?_, e3⟩⟩
    have := fullLines_line (b := []) (fun c hc => ht c (List.mem_append_left _ hc)) hs0 fun c hc => absurd hc List.not_mem_nil
    rw [List.append_nil] at this
    rw [List.flatMap_cons, this, e2]
    rfl
  · subst h1 h2
    obtain ⟨segs', e1, e2, e3⟩ := folded_breaks_rest segs [] _ rfl (fun c hc => absurd hc List.not_mem_nil)
      (fun c hc => hb c (List.mem_append_right _ hc)) hs
    refine ⟨⟨t, segs', by rw [← e1, List.append_nil], h0, ?_, e3⟩⟩
    rw [List.flatMap_cons, fullLines_line ht h0 fun c hc => hb c (List.mem_append_left _ hc), e2]
    rfl

theorem unfoldFrom_full (ls : List Str) : ∀ cur, unfoldFrom cur ls = unfoldFrom cur (ls.filter (!·.isEmpty)) := by
  induction ls with
  | nil => intro cur; rfl
  | cons l ls ih =>
    intro cur
    cases l with
    | nil => exact ih cur
    | cons c l =>
      rw [List.filter_cons_of_pos rfl]
      simp only [unfoldFrom, ← ih]

/-- Only the lines that are not empty count. -/
theorem unfold_fullLines (txt : Str) : unfoldLines (stringToLines txt) = unfoldLines (fullLines txt) :=
  unfoldFrom_full _ _

theorem crlf_breaks : ∀ c ∈ crlf, isNl c = true := by
  intro c hc
  unfold crlf at hc
  rcases List.mem_cons.1 hc with rfl | hc
  · rfl
  · rw [List.mem_singleton.1 hc]; rfl

theorem serText_folded (w : Wrap) (hw : w.ok) (newline : Bool) (cl : ContentLine) (h : LogicalOk (serUnwrapped cl)) :
    ∃ txt, serText w newline cl = .ok txt ∧ FoldedAs (serUnwrapped cl) (fullLines txt) := by
  have hb : ∀ c ∈ (if newline then crlf else []), isNl c = true := by
    cases newline
    · exact fun c hc => absurd hc List.not_mem_nil
    · exact crlf_breaks
  obtain ⟨ps, h1, h2⟩ := physLines_folded w hw (serUnwrapped cl ++ if newline then crlf else [])
    fun e => serUnwrapped_ne cl (List.append_eq_nil_iff.1 e).1
  refine ⟨joinCrlf ps, by unfold serText; rw [h1]; rfl, ?_⟩
  rw [fullLines_join]
  exact folded_breaks h2 (serUnwrapped_ne cl) h.nonl hb

/-! ### The end of the text -/

theorem takeFitting_mem (w : Nat) (cs : List Str) : ∀ cur, ∀ c ∈ (takeFitting w cur cs).2, c ∈ cs := by
  induction cs with
  | nil => intro cur c h; exact h
  | cons c cs ih =>
    intro cur x h
    rw [takeFitting] at h
    split at h
    · exact List.mem_cons_of_mem _ (ih _ x h)
    · exact h

theorem wrapStep_rest {w : Nat} (hw : 1 ≤ w) (cs : List Str) (h : ∀ c ∈ cs, c ≠ []) :
    ∀ c ∈ (wrapStep w cs).2, c ≠ [] := by
  have hm := takeFitting_mem w cs []
  unfold wrapStep
  cases ht : takeFitting w [] cs with
  | mk cur rest =>
    rw [ht] at hm
    cases rest with
    | nil => exact fun c h => absurd h List.not_mem_nil
    | cons c' cs' =>
      dsimp only
      split
      · rename_i hlong
        intro c hc
        rcases List.mem_cons.1 hc with rfl | hc
        · have := longWordEnd_le c' cur.length w
          rw [if_neg (by omega)] at this
          intro e
          have := List.drop_eq_nil_iff.1 e
          omega
        · exact h c (hm c (List.mem_cons_of_mem _ hc))
      · exact fun c hc => h c (hm c hc)

theorem flatten_ne {cs : List Str} (h : ∀ c ∈ cs, c ≠ []) (h0 : cs ≠ []) : cs.flatten ≠ [] := by
  cases cs with
  | nil => exact absurd rfl h0
  | cons c cs =>
    intro e
    exact h c List.mem_cons_self (List.append_eq_nil_iff.1 e).1

theorem getLast?_append_ne {a b : Str} (h : b ≠ []) : (a ++ b).getLast? = b.getLast? := by
  cases hb : b.getLast? with
  | none => exact absurd (List.getLast?_eq_none_iff.1 hb) h
  | some x => rw [List.getLast?_append, hb]; rfl

/-- With at least two columns the last line ends with the last character. -/
theorem wrapLoop_last {W : Nat} (hW : 2 ≤ W) (fuel : Nat) : ∀ (first : Bool) (cs : List Str) (ps : List Str),
    (∀ c ∈ cs, c ≠ []) → cs ≠ [] → wrapLoop W fuel first cs = .ok ps →
    ∃ init l, ps = init ++ [l] ∧ l.getLast? = cs.flatten.getLast? := by
  induction fuel with
  | zero =>
    intro first cs ps _ h0 h
    cases cs with
    | nil => exact absurd rfl h0
    | cons c cs => cases h
  | succ fuel ih =>
    intro first cs ps hc h0 h
    cases cs with
    | nil => exact absurd rfl h0
    | cons c cs =>
      have hw : 1 ≤ W - (if first then [] else [' '] : Str).length := by
        cases first
        · show 1 ≤ W - 1
          omega
        · show 1 ≤ W - 0
          omega
      have hs := wrapStep_spec (W - (if first then [] else [' '] : Str).length) c cs
      have hr := wrapStep_rest hw (c :: cs) hc
      unfold wrapLoop at h
      dsimp only at h
      generalize wrapStep (W - (if first then [] else [' '] : Str).length) (c :: cs) = p at h hs hr
      obtain ⟨cur, rest⟩ := p
      obtain ⟨hf, -, -, -, hne⟩ := hs
      replace h := map_ok_iff.1 h
      obtain ⟨ps', h, rfl⟩ := h
      dsimp only at hf hr hne
      rw [← hf]
      cases rest with
      | nil =>
        cases fuel <;> cases h <;> exact ⟨[], _, rfl, by
          rw [List.flatten_nil, List.append_nil]; exact getLast?_append_ne (hne (hc c List.mem_cons_self))⟩
      | cons r rest =>
        obtain ⟨init, l, rfl, hl⟩ := ih _ _ _ hr (List.cons_ne_nil _ _) h
        exact ⟨_ :: init, l, rfl, by rw [hl, getLast?_append_ne (flatten_ne hr (List.cons_ne_nil _ _))]⟩

theorem joinCrlf_concat (init : List Str) (l : Str) : joinCrlf (init ++ [l]) = init.flatMap (· ++ crlf) ++ l := by
  induction init with
  | nil => rfl
  | cons p init ih =>
    have e : joinCrlf (p :: (init ++ [l])) = p ++ crlf ++ joinCrlf (init ++ [l]) := by
      cases init <;> rfl
    rw [List.cons_append, e, ih, List.flatMap_cons, List.append_assoc, List.append_assoc, List.append_assoc]

/-- The lines are wide enough for a space and a character. -/
def Wrap.roomy : Wrap → Prop
  | .none => True
  | .width _ W => 2 ≤ W

theorem Wrap.roomy.ok {w : Wrap} (h : w.roomy) : w.ok := by
  cases w with
  | none => trivial
  | width ch W => exact Nat.le_trans (by decide) h

theorem serText_last {w : Wrap} (hw : w.roomy) {cl : ContentLine} {txt : Str} (h : serText w true cl = .ok txt) :
    txt.getLast? = some '\n' := by
  have hl : (serUnwrapped cl ++ crlf).getLast? = some '\n' := by
    rw [getLast?_append_ne (b := crlf) (List.cons_ne_nil _ _)]; rfl
  unfold serText at h
  rw [if_pos rfl] at h
  replace h := map_ok_iff.1 h
  obtain ⟨ps, h, rfl⟩ := h
  cases w with
  | none => cases h; exact hl
  | width ch W =>
    have hw : 2 ≤ W := hw
    unfold physLines at h
    dsimp only at h
    unfold wrap wrapChunks at h
    rw [if_neg (by omega)] at h
    have hf := ch.flatten_split (serUnwrapped cl ++ crlf)
    obtain ⟨init, l, rfl, e⟩ := wrapLoop_last hw _ _ _ _ (ch.ne_nil _) (by
      intro e; rw [e] at hf
      exact absurd (List.append_eq_nil_iff.1 hf.symm).1 (serUnwrapped_ne cl)) h
    rw [hf, hl] at e
    rw [joinCrlf_concat, List.getLast?_append, e]
    rfl

/-! ### Exactly what is written -/

theorem takeFitting_concat {w : Nat} (x : Str) (cs : List Str) : ∀ cur,
    takeFitting w cur (cs ++ [x]) =
      if (takeFitting w cur cs).2 = [] then
        (if (takeFitting w cur cs).1.length + x.length ≤ w then ((takeFitting w cur cs).1 ++ x, [])
         else ((takeFitting w cur cs).1, [x]))
      else ((takeFitting w cur cs).1, (takeFitting w cur cs).2 ++ [x]) := by
  induction cs with
  | nil =>
    intro cur
    rw [List.nil_append, takeFitting, takeFitting, takeFitting, if_pos rfl]
  | cons c cs ih =>
    intro cur
    rw [List.cons_append, takeFitting, takeFitting]
    split
    · exact ih _
    · rw [if_neg (List.cons_ne_nil _ _)]
      rfl

/-- A further chunk that fits on a line of its own comes after the others. -/
theorem wrapStep_concat {w : Nat} (x : Str) (hx : x.length ≤ w) (cs : List Str) :
    wrapStep w (cs ++ [x]) =
      if (wrapStep w cs).2 = [] then
        (if (wrapStep w cs).1.length + x.length ≤ w then ((wrapStep w cs).1 ++ x, [])
         else ((wrapStep w cs).1, [x]))
      else ((wrapStep w cs).1, (wrapStep w cs).2 ++ [x]) := by
  unfold wrapStep
  rw [takeFitting_concat]
  cases takeFitting w [] cs with
  | mk cur rest =>
    cases rest with
    | nil =>
      rw [if_pos rfl]
      dsimp only
      by_cases h : cur.length + x.length ≤ w
      · rw [if_pos h]
      · rw [if_neg h]
        dsimp only
        rw [if_neg (by omega)]
    | cons c cs =>
      dsimp only
      rw [if_neg (List.cons_ne_nil _ _)]
      dsimp only [List.cons_append]
      split
      · rw [if_neg (List.cons_ne_nil _ _)]
        rfl
      · rw [if_neg (List.cons_ne_nil _ _)]
        rfl

theorem wrapLoop_concat {W : Nat} (x : Str) (hx : x.length + 1 ≤ W) (fuel : Nat) : ∀ (first : Bool) (cs ps : List Str),
    cs ≠ [] → wrapLoop W fuel first cs = .ok ps →
    ∃ init l, ps = init ++ [l] ∧ wrapLoop W (fuel + 1) first (cs ++ [x]) =
      .ok (init ++ if l.length + x.length ≤ W then [l ++ x] else [l, ' ' :: x]) := by
  induction fuel with
  | zero =>
    intro first cs ps h0 h
    cases cs with
    | nil => exact absurd rfl h0
    | cons c cs => cases h
  | succ fuel ih =>
    intro first cs ps h0 h
    cases cs with
    | nil => exact absurd rfl h0
    | cons c cs =>
      generalize hi : (if first then [] else [' '] : Str) = indent
      have hil : indent.length ≤ 1 := by
        rw [← hi]
        cases first
        · exact Nat.le_refl _
        · exact Nat.zero_le _
      have hc := wrapStep_concat (w := W - indent.length) x (by omega) (c :: cs)
      unfold wrapLoop at h
      dsimp only at h
      rw [hi] at h
      rw [List.cons_append] at hc ⊢
      unfold wrapLoop
      dsimp only
      rw [hi, hc]
      generalize wrapStep (W - indent.length) (c :: cs) = p at h
      obtain ⟨cur, rest⟩ := p
      replace h := map_ok_iff.1 h
      obtain ⟨ps', h, rfl⟩ := h
      cases rest with
      | nil =>
        have : ps' = [] := by cases fuel <;> cases h <;> rfl
        subst this
        refine ⟨[], indent ++ cur, rfl, ?_⟩
        rw [if_pos rfl, List.length_append]
        by_cases hfit : cur.length + x.length ≤ W - indent.length
        · rw [if_pos hfit, if_pos (by omega)]
          dsimp only
          rw [show wrapLoop W (fuel + 1) false [] = .ok [] from rfl, List.append_assoc]
          rfl
        · rw [if_neg hfit, if_neg (by omega)]
          dsimp only
          have : wrapStep (W - 1) [x] = (x, []) := by
            unfold wrapStep
            rw [takeFitting, if_pos (by simp only [List.length_nil]; omega)]
            rfl
          unfold wrapLoop
          dsimp only
          rw [if_neg Bool.false_ne_true]
          rw [show ([' '] : Str).length = 1 from rfl, this]
          dsimp only
          rw [show wrapLoop W fuel false [] = .ok [] by cases fuel <;> rfl]
          rfl
      | cons r rest =>
        obtain ⟨init, l, rfl, e⟩ := ih _ _ _ (List.cons_ne_nil _ _) h
        refine ⟨(indent ++ cur) :: init, l, rfl, ?_⟩
        rw [if_neg (List.cons_ne_nil _ _)]
        dsimp only
        rw [e]
        rfl

theorem wrapLoop_more {W : Nat} (fuel : Nat) : ∀ (first : Bool) (cs ps : List Str), wrapLoop W fuel first cs = .ok ps →
    wrapLoop W (fuel + 1) first cs = .ok ps := by
  induction fuel with
  | zero =>
    intro first cs ps h
    cases cs with
    | nil => exact h
    | cons c cs => cases h
  | succ fuel ih =>
    intro first cs ps h
    cases cs with
    | nil => exact h
    | cons c cs =>
      unfold wrapLoop at h ⊢
      dsimp only at h ⊢
      replace h := map_ok_iff.1 h
      obtain ⟨ps', h, rfl⟩ := h
      rw [ih _ _ _ h]
      rfl

end Ics
