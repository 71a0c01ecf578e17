import Verif.Proofs.Tree

/-!
C04–C07: folding, unfolding, line endings.
-/
namespace Ics

/-- A word splitter that keeps the text in one chunk (used in examples). -/
def Chunker.whole : Chunker where
  split t := if t = [] then [] else [t]
  flatten_split t := by split <;> simp_all
  ne_nil t c h := by split at h <;> simp_all

/-- A word splitter that cuts everywhere (used in examples). -/
def Chunker.chars : Chunker where
  split t := t.map fun c => [c]
  flatten_split t := by induction t <;> simp_all
  ne_nil t c h := by obtain ⟨x, -, rfl⟩ := List.mem_map.1 h; simp

/-! ### C04 -/

/-- C04: folding never fails for a positive width, and unfolding the physical lines gives back the
text, whatever the width and the word splitter. -/
theorem C04_unfold_fold (ch : Chunker) (W : Nat) (hW : 1 ≤ W) (t : Str) (hne : t ≠ [])
    (hb : NoBreak t) (hi : t.head? ≠ some ' ' ∧ t.head? ≠ some '\t') :
    ∃ ps, wrap ch W t = .ok ps ∧ unfoldLines ps = Gen.done [t] := by
  obtain ⟨ps, h1, h2⟩ := physLines_folded (.width ch W) hW t hne
  refine ⟨ps, h1, ?_⟩
  have hok : LogicalOk t := by
    refine ⟨(noBreak_iff t).1 hb, ?_⟩
    cases t with
    | nil => rfl
    | cons x t => simp only [List.head?_cons, ne_eq, Option.some.injEq] at hi; simp [startsFold, hi.1, hi.2]
  have := unfold_doc [(t, ps)] (by intro p hp; simp only [List.mem_singleton] at hp; subst hp; exact ⟨h2, hok⟩)
  simpa using this

example : NoBreak "SUMMARY:a-b  c".toList ∧ "SUMMARY:a-b  c".toList.head? ≠ some ' ' := by
  refine ⟨⟨by decide +kernel, by decide +kernel⟩, by decide +kernel⟩
example : wrap .chars 4 "SUMMARY: a".toList =
    .ok ["SUMM".toList, " ARY".toList, " : a".toList] := by decide +kernel
example : wrap .whole 7 "ab-cdefgh".toList = .ok ["ab-".toList, " cdefgh".toList] := by decide +kernel

/-- C04 for a whole written content line: what `serialize_iter` writes, with or without a final line
break, unfolds to the one logical line. -/
theorem C04_serialized_line (w : Wrap) (hw : w.ok) (newline : Bool) (cl : ContentLine)
    (hn : NoBreak cl.name) (hp : ∀ p ∈ cl.params, NoBreak p.1) (hv : NoBreak cl.value)
    (hi : cl.name.head? ≠ some ' ' ∧ cl.name.head? ≠ some '\t') :
    ∃ txt, serLine w newline cl = .ok txt ∧
      unfoldLines (stringToLines txt) = Gen.done [serUnwrapped cl] := by
  have hok := serUnwrapped_logical hn hp hv hi
  obtain ⟨ps, h1, h2⟩ := physLines_folded w hw _ (serUnwrapped_ne cl)
  have hnl := folded_nonl h2 hok
  have hdoc := unfold_doc [(serUnwrapped cl, ps)]
    (by intro p hp; simp only [List.mem_singleton] at hp; subst hp; exact ⟨h2, hok⟩)
  simp only [List.flatMap_cons, List.flatMap_nil, List.append_nil, List.map_cons, List.map_nil] at hdoc
  have hps : ps ≠ [] := by obtain ⟨s0, segs, -, -, rfl, -⟩ := h2.ex; simp
  cases newline with
  | true =>
    refine ⟨ps.flatMap (· ++ crlf), by simp [serLine, h1], ?_⟩
    rw [unfold_crlf _ hnl, hdoc]
  | false =>
    have e : ps = ps.dropLast ++ [ps.getLast hps] := (List.dropLast_concat_getLast hps).symm
    refine ⟨ps.dropLast.flatMap (· ++ crlf) ++ ps.getLast hps, ?_, ?_⟩
    · simp [serLine, h1, hps, List.getLast?_eq_some_getLast hps]
    · rw [unfold_crlf_last _ _ (by rw [← e]; exact hnl), ← e, hdoc]

example : serLine (.width .chars 5) true ⟨"A".toList, [], "bcdefg".toList⟩ =
    .ok "A:bcd\r\n efg\r\n".toList := by decide +kernel

/-! ### C05 -/

/-- C05: every physical line has at most `W` characters (`W ≥ 2`). -/
theorem C05_width (ch : Chunker) (W : Nat) (hW : 2 ≤ W) (t : Str) (ps : List Str)
    (h : wrap ch W t = .ok ps) : ∀ p ∈ ps, p.length ≤ W := by
  by_cases ht : t = []
  · subst ht
    have hf := ch.flatten_split []
    have hn := ch.ne_nil []
    have : ch.split [] = [] := by
      cases hs : ch.split [] with
      | nil => rfl
      | cons c cs => rw [hs] at hf hn; simp at hf; exact absurd hf.1 (hn c (by simp))
    rw [wrap, this, wrapChunks, if_neg (by omega)] at h
    simp only [wrapLoop, Except.ok.injEq] at h
    subst h; simp
  · obtain ⟨s0, segs, h1, -, -, h4, h5⟩ := wrap_spec ch W (by omega) t ht
    rw [h1, Except.ok.injEq] at h; subst h
    intro p hp
    simp only [List.mem_cons, List.mem_map] at hp
    rcases hp with rfl | ⟨s, hs, rfl⟩
    · exact h4
    · have := h5 s hs; simp only [List.length_cons]; omega

example : wrap .chars 2 "abc".toList = .ok ["ab".toList, " c".toList] := by decide +kernel

/-- The hypothesis `W ≥ 2` is needed: with width 1 there are lines of two characters. -/
theorem C05_width_one : wrap .chars 1 "ab".toList = .ok ["a".toList, " b".toList, " ".toList] := by decide +kernel

/-- C05, octets: with the default width 75, every line is at most 75 octets *if the text is ASCII*.
Missing: texts with other characters, see `C05_octets_fails`. -/
theorem C05_octets_partial (ch : Chunker) (t : Str) (hascii : ∀ c ∈ t, c.utf8Size = 1) (ps : List Str)
    (h : wrap ch 75 t = .ok ps) : ∀ p ∈ ps, octets p ≤ 75 := by
  have hlen := C05_width ch 75 (by omega) t ps h
  have hone : ∀ s : Str, (∀ c ∈ s, c.utf8Size = 1) → octets s = s.length := by
    intro s hs
    induction s with
    | nil => rfl
    | cons x s ih =>
      have := ih fun c hc => hs c (List.mem_cons_of_mem _ hc)
      simp only [octets, List.map_cons, List.sum_cons, List.length_cons] at this ⊢
      rw [this, hs x (by simp)]; omega
  intro p hp
  have hp' := hlen p hp
  by_cases ht : t = []
  · subst ht
    have hnil : ch.split [] = [] := by
      have hf := ch.flatten_split []
      have hn := ch.ne_nil []
      cases hs : ch.split [] with
      | nil => rfl
      | cons c cs => rw [hs] at hf hn; simp at hf; exact absurd hf.1 (hn c (by simp))
    rw [wrap, hnil, wrapChunks, if_neg (by omega)] at h
    simp only [wrapLoop, Except.ok.injEq] at h
    subst h; simp at hp
  · obtain ⟨s0, segs, h1, h2, -⟩ := wrap_spec ch 75 (by omega) t ht
    rw [h1, Except.ok.injEq] at h; subst h
    rw [hone p]
    · exact hp'
    · intro c hc
      simp only [List.mem_cons, List.mem_map] at hp
      rcases hp with rfl | ⟨s, hs, rfl⟩
      · exact hascii c (by rw [← h2]; simp [hc])
      · rcases List.mem_cons.1 hc with rfl | hc
        · decide
        · apply hascii; rw [← h2]
          simp only [List.mem_append, List.mem_flatten]
          exact Or.inr ⟨s, hs, hc⟩

example : ∀ c ∈ "SUMMARY:Lunch".toList, c.utf8Size = 1 := ball (by decide +kernel)

/-- C05 is false for octets: whatever the word splitter, `SUMMARY:` followed by 40 times `é` is
written on one line of 88 octets. -/
theorem C05_octets_fails (ch : Chunker) :
    ∃ ps, wrap ch 75 ("SUMMARY:".toList ++ List.replicate 40 'é') = .ok ps ∧ ∃ p ∈ ps, octets p = 88 :=
  ⟨_, wrap_short ch 75 _ (by decide +kernel) (by decide +kernel), _, List.mem_singleton.2 rfl, by decide +kernel⟩

/-! ### C06 -/

/-- C06: any folded presentation of a document – each logical line cut anywhere after its first
character, with a space or a tab before each further piece – is parsed like the unfolded one. -/
theorem C06_fold_independent (doc : List (Str × List Str))
    (hfold : ∀ p ∈ doc, FoldedAs p.1 p.2) (hb : ∀ p ∈ doc, NoBreak p.1)
    (hi : ∀ p ∈ doc, p.1.head? ≠ some ' ' ∧ p.1.head? ≠ some '\t') :
    linesToContainers (doc.flatMap Prod.snd) = linesToContainers (doc.map Prod.fst) := by
  have hok : ∀ p ∈ doc, LogicalOk p.1 := by
    intro p hp
    refine ⟨(noBreak_iff _).1 (hb p hp), ?_⟩
    have := hi p hp
    cases hp1 : p.1 with
    | nil => rfl
    | cons x t =>
      rw [hp1] at this
      simp only [List.head?_cons, ne_eq, Option.some.injEq] at this; simp [startsFold, this.1, this.2]
  have hne : ∀ p ∈ doc, p.1 ≠ [] := by
    intro p hp h
    obtain ⟨s0, segs, h1, h2, -⟩ := (hfold p hp).ex
    rw [h] at h1; exact h2 (List.append_eq_nil_iff.1 h1.symm).1
  have e1 := unfold_doc doc fun p hp => ⟨hfold p hp, hok p hp⟩
  have e2 := unfold_doc (doc.map fun p => (p.1, [p.1])) (by
    intro q hq
    obtain ⟨p, hp, rfl⟩ := List.mem_map.1 hq
    exact ⟨folded_self (hne p hp), hok p hp⟩)
  have e3 : (doc.map fun p => (p.1, [p.1])).flatMap Prod.snd = doc.map Prod.fst := by
    rw [List.flatMap_map]
    clear * -
    induction doc with
    | nil => rfl
    | cons p doc ih => simp only [List.flatMap_cons, ih, List.map_cons, List.cons_append, List.nil_append]
  have e4 : (doc.map fun p => (p.1, [p.1])).map Prod.fst = doc.map Prod.fst := by
    simp [Function.comp_def]
  rw [e3, e4] at e2
  rw [linesToContainers, linesToContainers, e1, e2]

example : FoldedAs "SUMMARY:abc".toList ["SUM".toList, " MARY:".toList, "\tabc".toList] :=
  ⟨"SUM".toList, [(' ', "MARY:".toList), ('\t', "abc".toList)], by decide +kernel, by decide +kernel, by decide +kernel, by decide +kernel⟩

/-! ### C07 -/

/-- C07: a text whose lines end in any mixture of CRLF, LF and CR parses like the list of its
lines. -/
theorem C07_eol_independent (ls : List (Str × Eol)) (last : Str) (h : ∀ p ∈ ls, NoBreak p.1)
    (hl : NoBreak last) :
    stringToContainers (joinEol ls last) = linesToContainers (ls.map Prod.fst ++ [last]) := by
  rw [stringToContainers, linesToContainers, linesToContainers,
    unfold_join ls last (fun p hp => (noBreak_iff _).1 (h p hp)) ((noBreak_iff _).1 hl)]

example : ∀ p ∈ [("BEGIN:A".toList, Eol.cr), ([], Eol.lf), ("END:A".toList, Eol.crlf)], NoBreak p.1 := by
  intro p hp
  simp only [List.mem_cons, List.not_mem_nil, or_false] at hp
  rcases hp with rfl | rfl | rfl <;> exact ⟨by decide +kernel, by decide +kernel⟩

/-- C07: blank lines and trailing line-break characters make no difference when parsing an iterable
of lines. -/
theorem C07_blank_lines (raw clean : List Str) (h : ∀ l ∈ clean, NoBreak l ∧ l ≠ [])
    (hraw : ∃ brk : List (List Str × Str × Str), -- blank lines, then a line, then its line break
      (∀ b ∈ brk, (∀ x ∈ b.1, ∀ c ∈ x, c = '\r' ∨ c = '\n') ∧ ∀ c ∈ b.2.2, c = '\r' ∨ c = '\n') ∧
      ∃ tail : List Str, (∀ x ∈ tail, ∀ c ∈ x, c = '\r' ∨ c = '\n') ∧
      raw = brk.flatMap (fun b => b.1 ++ [b.2.1 ++ b.2.2]) ++ tail ∧ clean = brk.map (·.2.1)) :
    linesToContainers raw = linesToContainers clean := by
  obtain ⟨brk, hbrk, tail, htail, rfl, rfl⟩ := hraw
  have hnl : ∀ c, c = '\r' ∨ c = '\n' → isNl c = true := by rintro c (rfl | rfl) <;> rfl
  have hblank : ∀ x : Str, (∀ c ∈ x, c = '\r' ∨ c = '\n') → rstripNl x = [] := by
    intro x hx
    have := rstripNl_append_nl (s := []) (e := x) (by simp) (fun c hc => hnl c (hx c hc))
    simpa using this
  have hblanks : ∀ xs : List Str, (∀ x ∈ xs, ∀ c ∈ x, c = '\r' ∨ c = '\n') →
      (xs.map rstripNl).filter (!·.isEmpty) = [] := by
    intro xs hxs
    rw [List.filter_eq_nil_iff]
    intro y hy
    obtain ⟨x, hx, rfl⟩ := List.mem_map.1 hy
    simp [hblank x (hxs x hx)]
  rw [linesToContainers, linesToContainers, unfoldLines, unfoldLines, unfoldFrom_strip]
  congr 3
  rw [List.map_append, List.filter_append, hblanks tail htail, List.append_nil]
  induction brk with
  | nil => rfl
  | cons b brk ih =>
    have hb := hbrk b (by simp)
    have hc := h b.2.1 (by simp)
    have ih' := ih (fun b hb => hbrk b (List.mem_cons_of_mem _ hb))
      (fun l hl => h l (by simp only [List.map_cons, List.mem_cons]; exact Or.inr hl))
    rw [List.flatMap_cons, List.map_append, List.filter_append, ih', List.map_append, List.filter_append,
      hblanks _ hb.1, List.nil_append, List.map_cons, List.map_nil,
      rstripNl_append_nl ((noBreak_iff _).1 hc.1) (fun c hc => hnl c (hb.2 c hc)),
      List.filter_cons_of_pos (by simpa using hc.2)]
    rfl

example : linesToContainers ["\r\n".toList, "BEGIN:A\r\n".toList, [], "END:A\n\n".toList] =
    linesToContainers ["BEGIN:A".toList, "END:A".toList] :=
  C07_blank_lines _ _ (by intro l hl; simp only [List.mem_cons, List.not_mem_nil, or_false] at hl
                          rcases hl with rfl | rfl <;> exact ⟨⟨by decide +kernel, by decide +kernel⟩, by decide +kernel⟩)
    ⟨[(["\r\n".toList], "BEGIN:A".toList, "\r\n".toList), ([[]], "END:A".toList, "\n\n".toList)],
      by
        intro b hb
        simp only [List.mem_cons, List.not_mem_nil, or_false] at hb
        rcases hb with rfl | rfl <;> simp,
      [], by simp, by decide +kernel, by decide +kernel⟩

end Ics
