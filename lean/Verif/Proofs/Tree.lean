import Verif.Proofs.Fold
import Verif.Proofs.LineRoundTrip
import Verif.Spec.Contentline
import Batteries.Data.Char.AsciiCasing

namespace Ics

abbrev BEGIN : Str := "BEGIN".toList
abbrev END : Str := "END".toList

theorem upper_eq_nil {s : Str} : upper s = [] ↔ s = [] := by simp [upper]

theorem upper_upper (s : Str) : upper (upper s) = upper s := by
  simp [upper]

/-! ### Forward: flat lines of a tree parse to the tree -/

mutual
/-- Lines are not BEGIN/END; container names are non-empty and upper case. -/
def TreeOk : Item → Prop
  | .line cl => cl.name ≠ "BEGIN".toList ∧ cl.name ≠ "END".toList
  | .cont n is => n ≠ [] ∧ upper n = n ∧ TreesOk is
def TreesOk : List Item → Prop
  | [] => True
  | i :: is => TreeOk i ∧ TreesOk is
end

mutual
theorem toContainer_item (err : Option PyErr) : ∀ (i : Item), TreeOk i → ∀ (fuel : Nat) (name : Str) (acc : List Item) (tl : List ContentLine),
    (flatItem i).length + tl.length < fuel → ∃ fuel', tl.length < fuel' ∧
    toContainer err fuel name acc (flatItem i ++ tl) = toContainer err fuel' name (acc ++ [i]) tl
  | .line cl, h, fuel, name, acc, tl, hf => by
    cases fuel with
    | zero => omega
    | succ fuel =>
      refine ⟨fuel, by simp [flatItem] at hf; omega, ?_⟩
      simp only [TreeOk] at h
      simp only [flatItem, List.cons_append, List.nil_append, toContainer]
      rw [if_neg h.1, if_neg h.2]
  | .cont n is, h, fuel, name, acc, tl, hf => by
    cases fuel with
    | zero => omega
    | succ fuel =>
      simp only [TreeOk] at h
      refine ⟨fuel, by simp [flatItem] at hf; omega, ?_⟩
      have hlen : (flatItems is).length + (⟨"END".toList, [], n⟩ :: tl : List ContentLine).length < fuel := by
        simp [flatItem] at hf ⊢; omega
      obtain ⟨f', hf', hrec⟩ := toContainer_items err is h.2.2 fuel n [] (⟨"END".toList, [], n⟩ :: tl) hlen
      simp only [flatItem, List.cons_append, List.append_assoc, List.nil_append, toContainer, if_true]
      rw [hrec]
      cases f' with
      | zero => simp at hf'
      | succ f' =>
        have hne : ("END".toList = "BEGIN".toList) = False := by decide
        simp only [toContainer, hne, if_false, if_true, List.nil_append, ne_eq, not_true, mkContainer, h.2.1, if_neg h.1]
theorem toContainer_items (err : Option PyErr) : ∀ (is : List Item), TreesOk is → ∀ (fuel : Nat) (name : Str) (acc : List Item) (tl : List ContentLine),
    (flatItems is).length + tl.length < fuel → ∃ fuel', tl.length < fuel' ∧
    toContainer err fuel name acc (flatItems is ++ tl) = toContainer err fuel' name (acc ++ is) tl
  | [], _, fuel, name, acc, tl, hf => ⟨fuel, by simp [flatItems] at hf; exact hf, by simp [flatItems]⟩
  | i :: is, h, fuel, name, acc, tl, hf => by
    simp only [TreesOk] at h
    simp only [flatItems, List.length_append] at hf
    obtain ⟨f1, h1, e1⟩ := toContainer_item err i h.1 fuel name acc (flatItems is ++ tl) (by simp; omega)
    obtain ⟨f2, h2, e2⟩ := toContainer_items err is h.2 f1 name (acc ++ [i]) tl (by simpa using h1)
    refine ⟨f2, h2, ?_⟩
    rw [flatItems, List.append_assoc, e1, e2]; simp
end

theorem toContainersF_flat (is : List Item) (h : TreesOk is) : ∀ fuel, (flatItems is).length ≤ fuel →
    toContainersF none fuel (flatItems is) = Gen.done is := by
  induction is with
  | nil => intro fuel _; simp [flatItems, toContainersF, Gen.done]
  | cons i is ih =>
    intro fuel hf
    simp only [TreesOk] at h
    cases i with
    | line cl =>
      simp only [TreeOk] at h
      cases fuel with
      | zero => simp [flatItems, flatItem] at hf
      | succ fuel =>
        simp only [flatItems, flatItem, List.cons_append, List.nil_append, toContainersF]
        rw [if_neg h.1.1, ih h.2 _ (by simp [flatItems, flatItem] at hf; omega)]; rfl
    | cont n its =>
      have hn := h.1; simp only [TreeOk] at hn
      cases fuel with
      | zero => simp [flatItems, flatItem] at hf
      | succ fuel =>
        simp only [flatItems, flatItem, List.cons_append, List.append_assoc, List.nil_append, toContainersF, if_true]
        obtain ⟨f', hf', e⟩ := toContainer_items none its hn.2.2
          ((flatItems its ++ (⟨"END".toList, [], n⟩ :: flatItems is : List ContentLine)).length + 1) n []
          (⟨"END".toList, [], n⟩ :: flatItems is) (by simp)
        rw [e]
        cases f' with
        | zero => simp at hf'
        | succ f' =>
          have hne : ("END".toList = "BEGIN".toList) = False := by decide
          simp only [toContainer, hne, if_false, if_true, List.nil_append, ne_eq, not_true, mkContainer, hn.2.1, if_neg hn.1]
          rw [ih h.2 _ (by simp [flatItems, flatItem] at hf; omega)]; rfl

/-! ### Backward: what a successful parse says -/

theorem canon_line {l : ContentLine} (h1 : l.name ≠ BEGIN) (h2 : l.name ≠ END) : canonLine l = l := by
  rw [canonLine, if_neg]; rintro (h | h); exacts [h1 h, h2 h]

theorem flatItems_append (a b : List Item) : flatItems (a ++ b) = flatItems a ++ flatItems b := by
  induction a with
  | nil => rfl
  | cons i a ih => simp [flatItems, ih]

/-- What `toContainer` consumed and built. -/
theorem toContainer_ok (err : Option PyErr) (fuel : Nat) : ∀ (name : Str) (acc : List Item) (ls : List ContentLine) (i : Item) (rest : List ContentLine),
    toContainer err fuel name acc ls = .ok (i, rest) →
    rest.length < ls.length ∧ (∀ x ∈ rest, x ∈ ls) ∧ name ≠ [] ∧ (∀ st, wellNested (name :: st) ls = wellNested st rest) ∧
    ∃ its, i = .cont (upper name) (acc ++ its) ∧
      (flatItems its ++ [(⟨END, [], upper name⟩ : ContentLine)]).map canonLine ++ rest.map canonLine = ls.map canonLine := by
  induction fuel with
  | zero => intro name acc ls i rest h; simp [toContainer] at h
  | succ fuel ih =>
    intro name acc ls i rest h
    cases ls with
    | nil => simp [toContainer] at h
    | cons l ls =>
      simp only [toContainer] at h
      split at h
      · rename_i hb
        split at h
        · simp at h
        · rename_i i1 rest1 h1
          obtain ⟨a1, a0, a2, a3, its1, a4, a5⟩ := ih _ _ _ _ _ h1
          obtain ⟨b1, b0, b2, b3, its2, b4, b5⟩ := ih _ _ _ _ _ h
          refine ⟨by simp; omega, fun x hx => List.mem_cons_of_mem _ (a0 x (b0 x hx)), b2, ?_, i1 :: its2, by simp [b4], ?_⟩
          · intro st; rw [wellNested, if_pos hb, a3, b3]
          · rw [List.map_cons, ← a5, ← b5]
            subst a4
            simp only [flatItems, flatItem, List.nil_append, List.map_append, List.map_cons, List.append_assoc,
              List.cons_append, List.map_nil]
            congr 1
            simp [canonLine, hb, upper_upper]
      · rename_i hb
        split at h
        · rename_i he
          split at h
          · simp at h
          · rename_i hu
            rw [mkContainer] at h
            split at h
            · simp at h
            · rename_i i1 hi
              split at hi
              · simp at hi
              · rename_i hne
                have hne' : name ≠ [] := fun hn => hne (upper_eq_nil.2 hn)
                simp only [Except.ok.injEq, Prod.mk.injEq] at h hi
                obtain ⟨rfl, rfl⟩ := h
                simp only [ne_eq, not_not] at hu
                refine ⟨by simp, fun x hx => List.mem_cons_of_mem _ hx, hne', ?_, [], by simp [← hi], ?_⟩
                · intro st; rw [wellNested, if_neg hb, if_pos he]; simp [hu, hne']
                · simp [flatItems, canonLine, he, hu, upper_upper, END]
        · rename_i he
          obtain ⟨b1, b0, b2, b3, its2, b4, b5⟩ := ih _ _ _ _ _ h
          refine ⟨by simp; omega, fun x hx => List.mem_cons_of_mem _ (b0 x hx), b2, ?_, .line l :: its2, by simp [b4], ?_⟩
          · intro st; rw [wellNested, if_neg hb, if_neg he, b3]
          · rw [List.map_cons, ← b5]; simp [flatItems, flatItem]

theorem toContainer_error (fuel : Nat) : ∀ (err : Option PyErr) (name : Str) (acc : List Item) (ls : List ContentLine) (e : PyErr),
    toContainer err fuel name acc ls = .error e → ls.length < fuel →
    (e = .parseError ∨ (e = .valueError ∧ (name = [] ∨ ∃ l ∈ ls, l.name = BEGIN ∧ l.value = [])) ∨ err = some e) ∧
    (∀ st, wellNested (name :: st) ls = false) := by
  induction fuel with
  | zero => intro err name acc ls e _ hl; omega
  | succ fuel ih =>
    intro err name acc ls e h hl
    cases ls with
    | nil =>
      simp only [toContainer, Except.error.injEq] at h
      refine ⟨?_, by intro st; simp [wellNested]⟩
      cases err with
      | none => left; simpa using h.symm
      | some e' => right; right; simpa using h
    | cons l ls =>
      simp only [List.length_cons] at hl
      simp only [toContainer] at h
      split at h
      · rename_i hb
        split at h
        · rename_i e1 h1
          simp only [Except.error.injEq] at h; subst h
          obtain ⟨a1, a2⟩ := ih _ _ _ _ _ h1 (by omega)
          refine ⟨?_, ?_⟩
          · rcases a1 with h | ⟨h, hn | ⟨x, hx, hx'⟩⟩ | h
            · exact Or.inl h
            · exact Or.inr (Or.inl ⟨h, Or.inr ⟨l, by simp, hb, hn⟩⟩)
            · exact Or.inr (Or.inl ⟨h, Or.inr ⟨x, by simp [hx], hx'⟩⟩)
            · exact Or.inr (Or.inr h)
          · intro st; rw [wellNested, if_pos hb, a2]
        · rename_i i1 rest1 h1
          obtain ⟨c1, hsub, c2, c3, -⟩ := toContainer_ok _ _ _ _ _ _ _ h1
          obtain ⟨a1, a2⟩ := ih _ _ _ _ _ h (by omega)
          refine ⟨?_, ?_⟩
          · rcases a1 with h | ⟨h, hn | ⟨x, hx, hx'⟩⟩ | h
            · exact Or.inl h
            · exact Or.inr (Or.inl ⟨h, Or.inl hn⟩)
            · exact Or.inr (Or.inl ⟨h, Or.inr ⟨x, by simp [hsub x hx], hx'⟩⟩)
            · exact Or.inr (Or.inr h)
          · intro st; rw [wellNested, if_pos hb, c3, a2]
      · rename_i hb
        split at h
        · rename_i he
          split at h
          · rename_i hu
            simp only [Except.error.injEq] at h
            refine ⟨Or.inl h.symm, ?_⟩
            intro st; rw [wellNested, if_neg hb, if_pos he]
            have : (upper name == upper l.value) = false := by simpa using Ne.symm hu
            simp [this]
          · rename_i hu
            rw [mkContainer] at h
            split at h
            · rename_i e1 h1
              split at h1
              · rename_i hnil
                simp only [Except.error.injEq] at h h1
                refine ⟨Or.inr (Or.inl ⟨by rw [← h, ← h1], Or.inl (upper_eq_nil.1 hnil)⟩), ?_⟩
                intro st; rw [wellNested, if_neg hb, if_pos he]; simp [upper_eq_nil.1 hnil]
              · simp at h1
            · simp at h
        · rename_i he
          obtain ⟨a1, a2⟩ := ih _ _ _ _ _ h (by omega)
          refine ⟨?_, ?_⟩
          · rcases a1 with h | ⟨h, hn | ⟨x, hx, hx'⟩⟩ | h
            · exact Or.inl h
            · exact Or.inr (Or.inl ⟨h, Or.inl hn⟩)
            · exact Or.inr (Or.inl ⟨h, Or.inr ⟨x, by simp [hx], hx'⟩⟩)
            · exact Or.inr (Or.inr h)
          · intro st; rw [wellNested, if_neg hb, if_neg he, a2]

theorem toContainersF_spec (fuel : Nat) : ∀ (err : Option PyErr) (ls : List ContentLine), ls.length ≤ fuel →
    ((toContainersF err fuel ls).err = none → err = none ∧ wellNested [] ls = true ∧
      (flatItems (toContainersF err fuel ls).items).map canonLine = ls.map canonLine) ∧
    (err = none → wellNested [] ls = true → (toContainersF err fuel ls).err = none) ∧
    (∀ e, (toContainersF err fuel ls).err = some e → e = .parseError ∨
      (e = .valueError ∧ ∃ l ∈ ls, l.name = BEGIN ∧ l.value = []) ∨ err = some e) := by
  induction fuel with
  | zero =>
    intro err ls hl
    have : ls = [] := by simpa using hl
    subst this
    simp +contextual [toContainersF, flatItems, wellNested]
  | succ fuel ih =>
    intro err ls hl
    cases ls with
    | nil => simp +contextual [toContainersF, flatItems, wellNested]
    | cons l ls =>
      simp only [List.length_cons] at hl
      simp only [toContainersF]
      split
      · rename_i hb
        split
        · rename_i e h1
          obtain ⟨a1, a2⟩ := toContainer_error _ _ _ _ _ _ h1 (by omega)
          refine ⟨by simp [Gen.raise], ?_, ?_⟩
          · intro _ hw; rw [wellNested, if_pos hb, a2] at hw; simp at hw
          · intro e' he'
            simp only [Gen.raise, Option.some.injEq] at he'; subst he'
            rcases a1 with h | ⟨h, hn | ⟨x, hx, hx'⟩⟩ | h
            · exact Or.inl h
            · exact Or.inr (Or.inl ⟨h, l, by simp, hb, hn⟩)
            · exact Or.inr (Or.inl ⟨h, x, by simp [hx], hx'⟩)
            · exact Or.inr (Or.inr h)
        · rename_i i rest h1
          obtain ⟨c1, c0, c2, c3, its, c4, c5⟩ := toContainer_ok _ _ _ _ _ _ _ h1
          obtain ⟨i1, i2, i3⟩ := ih err rest (by omega)
          have hw : wellNested [] (l :: ls) = wellNested [] rest := by rw [wellNested, if_pos hb, c3]
          simp only [Gen.yield]
          refine ⟨?_, ?_, ?_⟩
          · intro h
            obtain ⟨j1, j2, j3⟩ := i1 h
            refine ⟨j1, by rw [hw, j2], ?_⟩
            rw [List.map_cons, ← c5, ← j3, c4]
            simp only [flatItems, flatItem, List.nil_append, List.map_append, List.map_cons, List.append_assoc,
              List.cons_append, List.map_nil]
            congr 1
            simp [canonLine, hb, upper_upper]
          · intro h hw'; exact i2 h (by rw [← hw, hw'])
          · intro e he
            rcases i3 e he with h | ⟨h, x, hx, hx'⟩ | h
            · exact Or.inl h
            · exact Or.inr (Or.inl ⟨h, x, List.mem_cons_of_mem _ (c0 x hx), hx'⟩)
            · exact Or.inr (Or.inr h)
      · rename_i hb
        obtain ⟨i1, i2, i3⟩ := ih err ls (by omega)
        have hw : wellNested [] (l :: ls) = wellNested [] ls := by
          rw [wellNested, if_neg hb]; simp
        simp only [Gen.yield]
        refine ⟨?_, ?_, ?_⟩
        · intro h
          obtain ⟨j1, j2, j3⟩ := i1 h
          exact ⟨j1, by rw [hw, j2], by simp [flatItems, flatItem, j3]⟩
        · intro h hw'; exact i2 h (by rw [← hw, hw'])
        · intro e he
          rcases i3 e he with h | ⟨h, x, hx, hx'⟩ | h
          · exact Or.inl h
          · exact Or.inr (Or.inl ⟨h, x, List.mem_cons_of_mem _ hx, hx'⟩)
          · exact Or.inr (Or.inr h)

theorem unfoldFrom_err (ls : List Str) : ∀ cur e, (unfoldFrom cur ls).err = some e → e = .parseError := by
  induction ls with
  | nil => intro cur e h; simp [unfoldFrom] at h
  | cons l ls ih =>
    intro cur e h
    simp only [unfoldFrom] at h
    split at h
    · exact ih _ _ h
    · split at h
      · simpa [Gen.raise] using h.symm
      · split at h
        · split at h
          · simpa [Gen.raise] using h.symm
          · exact ih _ _ h
        · split at h
          · exact ih _ _ h
          · simp only [Gen.yield] at h; exact ih _ _ h

theorem parseEach_err (err : Option PyErr) (ls : List Str) : ∀ e, (parseEach err ls).err = some e →
    e = .parseError ∨ err = some e := by
  induction ls with
  | nil => intro e h; right; simpa [parseEach] using h
  | cons l ls ih =>
    intro e h
    simp only [parseEach] at h
    split at h
    · rename_i e' he'
      simp only [Gen.raise, Option.some.injEq] at h
      left; rw [← h]; exact parseLine_err he'
    · simp only [Gen.yield] at h; exact ih e h

/-! ### Writing a tree -/

theorem unfoldFrom_blank (ls : List Str) : ∀ cur,
    unfoldFrom cur ls = unfoldFrom cur (ls.filter (!·.isEmpty)) := by
  induction ls with
  | nil => intro cur; rfl
  | cons l ls ih =>
    intro cur
    by_cases he : l = []
    · subst he
      rw [List.filter_cons_of_neg (by simp), ← ih]
      simp [unfoldFrom, rstripNl]
    · rw [List.filter_cons_of_pos (by simpa using he)]
      simp only [unfoldFrom, ← ih]

/-- A text made of lines with any line endings unfolds like the list of its lines. -/
theorem unfold_join (ls : List (Str × Eol)) (last : Str)
    (h : ∀ p ∈ ls, ∀ c ∈ p.1, isNl c = false) (hl : ∀ c ∈ last, isNl c = false) :
    unfoldLines (stringToLines (joinEol ls last)) = unfoldLines (ls.map Prod.fst ++ [last]) := by
  rw [unfoldLines, unfoldLines, unfoldFrom_blank, stringToLines, splitLines_join _ ls last (Nat.le_refl _) h hl,
    ← unfoldFrom_blank]

theorem unfold_trailing_blank (ls : List Str) : unfoldLines (ls ++ [[]]) = unfoldLines ls := by
  rw [unfoldLines, unfoldLines, unfoldFrom_blank, List.filter_append]
  simp only [List.filter_cons, List.filter_nil, List.isEmpty_nil]
  simp [← unfoldFrom_blank]

/-- The text written by the library: physical lines with CRLF after each (but maybe not the last). -/
theorem unfold_crlf (ps : List Str) (h : ∀ p ∈ ps, ∀ c ∈ p, isNl c = false) :
    unfoldLines (stringToLines (ps.flatMap (· ++ crlf))) = unfoldLines ps := by
  have e : ps.flatMap (· ++ crlf) = joinEol (ps.map fun p => (p, Eol.crlf)) [] := by
    simp [joinEol, List.flatMap_map, crlf, Eol.text]
  rw [e, unfold_join]
  · rw [show (ps.map fun p => (p, Eol.crlf)).map Prod.fst = ps by simp [Function.comp_def], unfold_trailing_blank]
  · intro q hq c hc
    obtain ⟨p, hp, rfl⟩ := List.mem_map.1 hq
    exact h p hp c hc
  · simp

theorem unfold_crlf_last (ps : List Str) (p : Str) (h : ∀ q ∈ ps ++ [p], ∀ c ∈ q, isNl c = false) :
    unfoldLines (stringToLines (ps.flatMap (· ++ crlf) ++ p)) = unfoldLines (ps ++ [p]) := by
  have e : ps.flatMap (· ++ crlf) ++ p = joinEol (ps.map fun p => (p, Eol.crlf)) p := by
    simp [joinEol, List.flatMap_map, crlf, Eol.text]
  rw [e, unfold_join]
  · rw [show (ps.map fun p => (p, Eol.crlf)).map Prod.fst = ps by simp [Function.comp_def]]
  · intro q hq c hc
    obtain ⟨q', hq', rfl⟩ := List.mem_map.1 hq
    exact h q' (by simp [hq']) c hc
  · intro c hc; exact h p (by simp) c hc

theorem isNl_iff (c : Char) : isNl c = false ↔ c ≠ '\r' ∧ c ≠ '\n' := by
  simp [isNl]

theorem noBreak_iff (s : Str) : NoBreak s ↔ ∀ c ∈ s, isNl c = false := by
  constructor
  · intro h c hc; rw [isNl_iff]; exact ⟨fun e => h.1 (e ▸ hc), fun e => h.2 (e ▸ hc)⟩
  · intro h; exact ⟨fun hc => absurd (h _ hc) (by decide), fun hc => absurd (h _ hc) (by decide)⟩

theorem mem_serPVal_nl {v : PVal} {c : Char} (h : c ∈ serPVal v) : isNl c = false := by
  rw [isNl_iff]
  have key : c ∈ escapeParam v.text → c ≠ '\r' ∧ c ≠ '\n' := fun h => ⟨(mem_escapeParam h).2.2, (mem_escapeParam h).2.1⟩
  rw [serPVal] at h
  split at h
  · simp only [List.cons_append, List.mem_cons, List.mem_append, List.not_mem_nil, or_false] at h
    rcases h with rfl | h | rfl
    · decide
    · exact key h
    · decide
  · exact key h

theorem mem_serPVals_nl (vs : List PVal) {c : Char} (h : c ∈ serPVals vs) : isNl c = false := by
  induction vs with
  | nil => simp [serPVals] at h
  | cons v vs ih =>
    cases vs with
    | nil => exact mem_serPVal_nl h
    | cons w vs =>
      simp only [serPVals, List.mem_append, List.mem_cons] at h
      rcases h with h | rfl | h
      · exact mem_serPVal_nl h
      · decide
      · exact ih h

theorem mem_serParams_nl (ps : Params) (hp : ∀ p ∈ ps, NoBreak p.1) {c : Char} (h : c ∈ serParams ps) :
    isNl c = false := by
  induction ps with
  | nil => simp [serParams] at h
  | cons p ps ih =>
    obtain ⟨n, vs⟩ := p
    simp only [serParams, List.cons_append, List.mem_cons, List.mem_append] at h
    rcases h with rfl | (h | rfl | h) | h
    · decide
    · exact (noBreak_iff _).1 (hp (n, vs) (by simp)) c h
    · decide
    · exact mem_serPVals_nl vs h
    · exact ih (fun q hq => hp q (List.mem_cons_of_mem _ hq)) h

theorem serUnwrapped_logical {cl : ContentLine} (hn : NoBreak cl.name) (hp : ∀ p ∈ cl.params, NoBreak p.1)
    (hv : NoBreak cl.value) (hi : cl.name.head? ≠ some ' ' ∧ cl.name.head? ≠ some '\t') :
    LogicalOk (serUnwrapped cl) := by
  constructor
  · intro c hc
    simp only [serUnwrapped, List.mem_append, List.mem_cons] at hc
    rcases hc with (h | h) | rfl | h
    · exact (noBreak_iff _).1 hn c h
    · exact mem_serParams_nl _ hp h
    · decide
    · exact (noBreak_iff _).1 hv c h
  · cases hname : cl.name with
    | nil =>
      cases hps : cl.params with
      | nil => simp [serUnwrapped, hname, hps, serParams, startsFold]
      | cons p ps => simp [serUnwrapped, hname, hps, serParams, startsFold]
    | cons x xs =>
      rw [hname] at hi
      simp only [serUnwrapped, hname, List.cons_append, startsFold]
      simp only [List.head?_cons, ne_eq, Option.some.injEq] at hi
      simp [hi.1, hi.2]

theorem serUnwrapped_ne (cl : ContentLine) : serUnwrapped cl ≠ [] := by simp [serUnwrapped]

/-- Line widths for which the wrapper works. -/
def Wrap.ok : Wrap → Prop
  | .none => True
  | .width _ W => 1 ≤ W

theorem physLines_folded (w : Wrap) (hw : w.ok) (t : Str) (ht : t ≠ []) :
    ∃ ps, physLines w t = .ok ps ∧ FoldedAs t ps := by
  cases w with
  | none => exact ⟨[t], rfl, ⟨t, [], by simp, ht, by simp, by simp⟩⟩
  | width ch W =>
    obtain ⟨s0, segs, h1, h2, h3, -⟩ := wrap_spec ch W hw t ht
    refine ⟨_, h1, ⟨s0, segs.map (fun s => (' ', s)), ?_, h3, ?_, ?_⟩⟩
    · rw [List.map_map, show (Prod.snd ∘ fun s : Str => (' ', s)) = id from rfl, List.map_id, h2]
    · simp [List.map_map, Function.comp_def]
    · intro s hs; obtain ⟨x, -, rfl⟩ := List.mem_map.1 hs; exact Or.inl rfl

theorem folded_self {t : Str} (ht : t ≠ []) : FoldedAs t [t] := ⟨t, [], by simp, ht, by simp, by simp⟩

/-- A tree whose lines can be written one by one. -/
def FlatOk (ls : List ContentLine) : Prop := ∀ cl ∈ ls, LogicalOk (serUnwrapped cl)

mutual
theorem serItem_doc (w : Wrap) (hw : w.ok) : ∀ i : Item, FlatOk (flatItem i) →
    ∃ doc : List (Str × List Str), serItem w i = .ok ((doc.flatMap Prod.snd).flatMap (· ++ crlf)) ∧
      doc.map Prod.fst = (flatItem i).map serUnwrapped ∧ ∀ p ∈ doc, FoldedAs p.1 p.2 ∧ LogicalOk p.1
  | .line cl, h => by
    obtain ⟨ps, h1, h2⟩ := physLines_folded w hw (serUnwrapped cl) (serUnwrapped_ne cl)
    refine ⟨[(serUnwrapped cl, ps)], ?_, by simp [flatItem], ?_⟩
    · simp [serItem, serLine, h1]
    · intro p hp; simp only [List.mem_singleton] at hp; subst hp
      exact ⟨h2, h cl (by simp [flatItem])⟩
  | .cont n is, h => by
    have hb : LogicalOk (serUnwrapped ⟨"BEGIN".toList, [], n⟩) := h _ (by simp [flatItem])
    have he : LogicalOk (serUnwrapped ⟨"END".toList, [], n⟩) := h _ (by simp [flatItem])
    obtain ⟨doc, h1, h2, h3⟩ := serItems_doc w hw is (fun cl hcl => h cl (by simp [flatItem, hcl]))
    have eb : serUnwrapped ⟨"BEGIN".toList, [], n⟩ = "BEGIN:".toList ++ n := by simp [serUnwrapped, serParams]
    have ee : serUnwrapped ⟨"END".toList, [], n⟩ = "END:".toList ++ n := by simp [serUnwrapped, serParams]
    refine ⟨("BEGIN:".toList ++ n, ["BEGIN:".toList ++ n]) :: (doc ++ [("END:".toList ++ n, ["END:".toList ++ n])]), ?_, ?_, ?_⟩
    · simp [serItem, h1, bind, Except.bind, List.flatMap_append]
    · rw [flatItem]
      simp only [List.map_cons, List.map_append, List.map_nil, h2, eb, ee]
    · intro p hp
      rw [eb] at hb; rw [ee] at he
      simp only [List.mem_cons, List.mem_append, List.not_mem_nil, or_false] at hp
      rcases hp with rfl | hp | rfl
      · exact ⟨folded_self (by simp), hb⟩
      · exact h3 p hp
      · exact ⟨folded_self (by simp), he⟩
theorem serItems_doc (w : Wrap) (hw : w.ok) : ∀ is : List Item, FlatOk (flatItems is) →
    ∃ doc : List (Str × List Str), serItems w is = .ok ((doc.flatMap Prod.snd).flatMap (· ++ crlf)) ∧
      doc.map Prod.fst = (flatItems is).map serUnwrapped ∧ ∀ p ∈ doc, FoldedAs p.1 p.2 ∧ LogicalOk p.1
  | [], _ => ⟨[], by simp [serItems], by simp [flatItems], by simp⟩
  | i :: is, h => by
    obtain ⟨d1, a1, a2, a3⟩ := serItem_doc w hw i (fun cl hcl => h cl (by simp [flatItems, hcl]))
    obtain ⟨d2, b1, b2, b3⟩ := serItems_doc w hw is (fun cl hcl => h cl (by simp [flatItems, hcl]))
    refine ⟨d1 ++ d2, ?_, by simp [flatItems, a2, b2], ?_⟩
    · simp [serItems, a1, b1, bind, Except.bind, List.flatMap_append]
    · intro p hp; rcases List.mem_append.1 hp with hp | hp
      · exact a3 p hp
      · exact b3 p hp
end

theorem folded_nonl {l : Str} {ps : List Str} (hf : FoldedAs l ps) (ho : LogicalOk l) :
    ∀ p ∈ ps, ∀ c ∈ p, isNl c = false := by
  obtain ⟨s0, segs, rfl, h0, rfl, hs⟩ := hf.ex
  have hn := ho.nonl
  intro p hp c hc
  simp only [List.mem_cons, List.mem_map] at hp
  rcases hp with rfl | ⟨s, hs', rfl⟩
  · exact hn c (by simp [hc])
  · simp only [List.mem_cons] at hc
    rcases hc with rfl | hc
    · rcases hs s hs' with h | h <;> rw [h] <;> decide
    · apply hn
      simp only [List.mem_append, List.mem_flatten, List.mem_map]
      exact Or.inr ⟨s.2, ⟨s, hs', rfl⟩, hc⟩

/-- What reading the text of a container yields, line by line. -/
theorem unfold_container (w : Wrap) (hw : w.ok) (newline : Bool) (n : Str) (is : List Item)
    (h : FlatOk (flatItem (.cont n is))) : ∃ txt, serContainer w newline n is = .ok txt ∧
      unfoldLines (stringToLines txt) = Gen.done ((flatItem (.cont n is)).map serUnwrapped) := by
  have hb : LogicalOk (serUnwrapped ⟨"BEGIN".toList, [], n⟩) := h _ (by simp [flatItem])
  have he : LogicalOk (serUnwrapped ⟨"END".toList, [], n⟩) := h _ (by simp [flatItem])
  obtain ⟨doc, h1, h2, h3⟩ := serItems_doc w hw is (fun cl hcl => h cl (by simp [flatItem, hcl]))
  have eb : serUnwrapped ⟨"BEGIN".toList, [], n⟩ = "BEGIN:".toList ++ n := by simp [serUnwrapped, serParams]
  have ee : serUnwrapped ⟨"END".toList, [], n⟩ = "END:".toList ++ n := by simp [serUnwrapped, serParams]
  let d0 : List (Str × List Str) := ("BEGIN:".toList ++ n, ["BEGIN:".toList ++ n]) :: doc
  let d1 : List (Str × List Str) := d0 ++ [("END:".toList ++ n, ["END:".toList ++ n])]
  have hd1 : ∀ p ∈ d1, FoldedAs p.1 p.2 ∧ LogicalOk p.1 := by
    intro p hp
    rw [eb] at hb; rw [ee] at he
    simp only [d1, d0, List.mem_cons, List.mem_append, List.not_mem_nil, or_false] at hp
    rcases hp with (rfl | hp) | rfl
    · exact ⟨folded_self (by simp), hb⟩
    · exact h3 p hp
    · exact ⟨folded_self (by simp), he⟩
  have hfst : d1.map Prod.fst = (flatItem (.cont n is)).map serUnwrapped := by
    simp only [d1, d0]
    rw [flatItem, List.map_cons, List.map_append, List.map_append, List.map_cons, h2, eb]
    simp only [List.map_cons, List.map_nil, ee, List.cons_append]
  have hnl : ∀ p ∈ d1.flatMap Prod.snd, ∀ c ∈ p, isNl c = false := by
    intro p hp
    obtain ⟨q, hq, hp⟩ := List.mem_flatMap.1 hp
    exact folded_nonl (hd1 q hq).1 (hd1 q hq).2 p hp
  have hsplit : d1.flatMap Prod.snd = d0.flatMap Prod.snd ++ ["END:".toList ++ n] := by
    simp [d1, List.flatMap_append]
  cases newline with
  | true =>
    refine ⟨(d1.flatMap Prod.snd).flatMap (· ++ crlf), ?_, ?_⟩
    · simp [serContainer, h1, bind, Except.bind, d1, d0, List.flatMap_append]
    · rw [unfold_crlf _ hnl, unfold_doc _ hd1, hfst]
  | false =>
    refine ⟨(d0.flatMap Prod.snd).flatMap (· ++ crlf) ++ ("END:".toList ++ n), ?_, ?_⟩
    · simp [serContainer, h1, bind, Except.bind, d0]
    · rw [unfold_crlf_last _ _ (by rw [← hsplit]; exact hnl), ← hsplit, unfold_doc _ hd1, hfst]

/-! ### Reading the lines back -/

def normLine (cl : ContentLine) : ContentLine := mkContentLine cl.name (normParams cl.params) cl.value

theorem parseEach_ser (ls : List ContentLine)
    (h : ∀ cl ∈ ls, parseLine (serUnwrapped cl) = .ok (normLine cl)) :
    parseEach none (ls.map serUnwrapped) = Gen.done (ls.map normLine) := by
  induction ls with
  | nil => rfl
  | cons l ls ih =>
    simp only [List.map_cons, parseEach, h l (by simp)]
    rw [ih fun cl hcl => h cl (List.mem_cons_of_mem _ hcl)]; rfl

mutual
def normItem : Item → Item
  | .line cl => .line (normLine cl)
  | .cont n is => .cont n (normItems is)
def normItems : List Item → List Item
  | [] => []
  | i :: is => normItem i :: normItems is
end

mutual
theorem flat_normItem : ∀ i : Item, (flatItem i).map normLine = flatItem (normItem i)
  | .line cl => by simp [flatItem, normItem]
  | .cont n is => by
    have hb : normLine ⟨"BEGIN".toList, [], n⟩ = ⟨"BEGIN".toList, [], n⟩ := by
      simp only [normLine, mkContentLine, normParams, List.map_nil]; congr 1
    have he : normLine ⟨"END".toList, [], n⟩ = ⟨"END".toList, [], n⟩ := by
      simp only [normLine, mkContentLine, normParams, List.map_nil]; congr 1
    rw [flatItem, List.map_cons, List.map_append, flat_normItems is, hb, List.map_cons, he, List.map_nil,
      normItem, flatItem]
theorem flat_normItems : ∀ is : List Item, (flatItems is).map normLine = flatItems (normItems is)
  | [] => rfl
  | i :: is => by rw [flatItems, List.map_append, flat_normItem i, flat_normItems is, normItems, flatItems]
end

theorem writable_parse {cl : ContentLine} (h : WritableLine cl) :
    parseLine (serUnwrapped cl) = .ok (normLine cl) := by
  apply parseLine_ser
  · intro c hc; have := h.name c hc; simp [isDelim, this.1, this.2]
  · intro p hp
    refine ⟨⟨fun hc => (h.pnames p hp _ hc).1 rfl, fun c hc => ?_⟩, ?_⟩
    · have := h.pnames p hp c hc; simp [isDelim, this.2.1, this.2.2]
    · obtain ⟨ini, last, h1, h2⟩ := h.vals p hp
      refine ⟨ini, last, h1, ?_⟩
      rw [serPVal]
      split
      · simp
      · rename_i hq
        simp only [Bool.or_eq_true, not_or] at hq
        have hne : last.text ≠ [] := by
          rcases h2 with h | h
          · exact absurd h hq.1
          · exact h
        have hcr := h.nocr p hp last (by rw [h1]; simp)
        cases ht : last.text with
        | nil => exact absurd ht hne
        | cons x xs =>
          rw [ht] at hcr
          simp only [List.mem_cons, not_or] at hcr
          simp only [escapeParam, List.flatMap_cons, escapeParamChar]
          intro h0
          have h1 := (List.append_eq_nil_iff.1 h0).1
          split at h1
          · simp at h1
          · split at h1
            · simp at h1
            · split at h1
              · simp at h1
              · split at h1
                · rename_i hx; exact hcr.1 hx.symm
                · simp at h1
  · exact h.distinct

theorem unquote_norm {cl : ContentLine} (h : WritableLine cl) : (normLine cl).unquote = cl.unquote := by
  simp only [normLine, mkContentLine, ContentLine.unquote, h.upperName, normParams, List.map_map]
  congr 1
  apply List.map_congr_left
  intro p hp
  simp only [Function.comp, List.map_map, Prod.mk.injEq, true_and]
  apply List.map_congr_left
  intro v hv
  have := h.nocr p hp v hv
  simp only [Function.comp, normPVal, PVal.mk.injEq, true_and]
  apply List.filter_eq_self.2
  intro c hc
  simp only [ne_eq, decide_eq_true_eq]
  rintro rfl; exact this hc

mutual
theorem unquote_normItem : ∀ i : Item, WritableTree i → (normItem i).unquote = i.unquote
  | .line cl, h => by
    rw [normItem, Item.unquote, Item.unquote, unquote_norm]
    rw [WritableTree] at h; exact h.toWritableLine
  | .cont n is, h => by
    rw [WritableTree] at h
    rw [normItem, Item.unquote, Item.unquote, unquote_normItems is h.2]
theorem unquote_normItems : ∀ is : List Item, WritableTrees is → Item.unquotes (normItems is) = Item.unquotes is
  | [], _ => rfl
  | i :: is, h => by
    rw [WritableTrees] at h
    rw [normItems, Item.unquotes, Item.unquotes, unquote_normItem i h.1, unquote_normItems is h.2]
end

mutual
theorem treeOk_norm : ∀ i : Item, WritableTree i → TreeOk (normItem i)
  | .line cl, h => by
    rw [WritableTree] at h
    rw [normItem, TreeOk]
    simp only [normLine, mkContentLine, h.upperName]
    exact ⟨h.notBegin, h.notEnd⟩
  | .cont n is, h => by
    rw [WritableTree] at h
    rw [normItem, TreeOk]
    exact ⟨h.1.ne, h.1.upperName, treesOk_norm is h.2⟩
theorem treesOk_norm : ∀ is : List Item, WritableTrees is → TreesOk (normItems is)
  | [], _ => by rw [normItems, TreesOk]; trivial
  | i :: is, h => by
    rw [WritableTrees] at h
    rw [normItems, TreesOk]; exact ⟨treeOk_norm i h.1, treesOk_norm is h.2⟩
end

theorem begin_parse (n : Str) : parseLine (serUnwrapped ⟨"BEGIN".toList, [], n⟩) = .ok (normLine ⟨"BEGIN".toList, [], n⟩) :=
  parseLine_ser _ (by intro c hc; simp at hc; rcases hc with rfl | rfl | rfl | rfl | rfl <;> rfl) (by simp) (by simp)

theorem end_parse (n : Str) : parseLine (serUnwrapped ⟨"END".toList, [], n⟩) = .ok (normLine ⟨"END".toList, [], n⟩) :=
  parseLine_ser _ (by intro c hc; simp at hc; rcases hc with rfl | rfl | rfl <;> rfl) (by simp) (by simp)

mutual
theorem flat_parse : ∀ i : Item, WritableTree i → ∀ cl ∈ flatItem i,
    parseLine (serUnwrapped cl) = .ok (normLine cl) ∧ LogicalOk (serUnwrapped cl)
  | .line cl, h, cl', hcl => by
    rw [WritableTree] at h
    simp only [flatItem, List.mem_singleton] at hcl; subst hcl
    exact ⟨writable_parse h.toWritableLine, serUnwrapped_logical h.nameBreak h.pnameBreak h.valueBreak h.noIndent⟩
  | .cont n is, h, cl', hcl => by
    rw [WritableTree] at h
    simp only [flatItem, List.mem_cons, List.mem_append, List.not_mem_nil, or_false] at hcl
    rcases hcl with rfl | hcl | rfl
    · exact ⟨begin_parse n, serUnwrapped_logical (by constructor <;> (dsimp only; decide)) (by simp) h.1.noBreak (by dsimp only; decide)⟩
    · exact flat_parses is h.2 cl' hcl
    · exact ⟨end_parse n, serUnwrapped_logical (by constructor <;> (dsimp only; decide)) (by simp) h.1.noBreak (by dsimp only; decide)⟩
theorem flat_parses : ∀ is : List Item, WritableTrees is → ∀ cl ∈ flatItems is,
    parseLine (serUnwrapped cl) = .ok (normLine cl) ∧ LogicalOk (serUnwrapped cl)
  | [], _, cl', hcl => by simp [flatItems] at hcl
  | i :: is, h, cl', hcl => by
    rw [WritableTrees] at h
    simp only [flatItems, List.mem_append] at hcl
    rcases hcl with hcl | hcl
    · exact flat_parse i h.1 cl' hcl
    · exact flat_parses is h.2 cl' hcl
end

theorem container_roundtrip (w : Wrap) (hw : w.ok) (newline : Bool) (n : Str) (is : List Item)
    (h : WritableTree (.cont n is)) : ∃ txt, serContainer w newline n is = .ok txt ∧
      stringToContainers txt = Gen.done [normItem (.cont n is)] := by
  obtain ⟨txt, h1, h2⟩ := unfold_container w hw newline n is (fun cl hcl => (flat_parse _ h cl hcl).2)
  refine ⟨txt, h1, ?_⟩
  rw [stringToContainers, linesToContainers, h2, linesToContentlines]
  simp only [Gen.done]
  rw [parseEach_ser _ (fun cl hcl => (flat_parse _ h cl hcl).1), flat_normItem]
  have hok : TreesOk [normItem (.cont n is)] := by
    rw [TreesOk, TreesOk]; exact ⟨treeOk_norm _ h, trivial⟩
  have := toContainersF_flat [normItem (.cont n is)] hok (flatItem (normItem (.cont n is))).length (by simp [flatItems])
  simpa [toContainers, Gen.done, flatItems] using this

end Ics
