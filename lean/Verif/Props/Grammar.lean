import Verif.Proofs.Grammar
import Verif.Model.Check
import Verif.Spec.Pattern

/-
C74: the parser accepts exactly the lines of the grammar and reads them as the grammar says.
C75: the check of parsed lines, and the pattern of content lines.
-/
namespace Ics

instance (s : Str) : Decidable (NoDelim s) := by unfold NoDelim; infer_instance

/-! ### C74 -/

/-- C74: a text is accepted if and only if it is a content line by the grammar of `Verif/Spec/Grammar.lean`, and it is
read as the grammar says: the name in upper case, the value, and the parameters in the order in which they are
first mentioned, each with the values that it is given last. -/
theorem C74_accepts (line : Str) (cl : ContentLine) : parseLine line = .ok cl ↔
    ∃ name ps value, LineText line name ps value ∧ cl = ⟨upper name, mergedParams ps, value⟩ := by
  constructor
  · exact line_sound
  · rintro ⟨name, ps, value, h, rfl⟩
    exact line_complete h

/-- C74: every other text is refused with a `ParseError`. -/
theorem C74_rejects (line : Str) : parseLine line = .error .parseError ↔ ¬∃ name ps value, LineText line name ps value := by
  constructor
  · rintro h ⟨name, ps, value, hl⟩
    rw [line_complete hl] at h
    cases h
  · intro h
    cases hp : parseLine line with
    | error e => rw [parseLine_err hp]
    | ok cl =>
      obtain ⟨name, ps, value, hl, -⟩ := line_sound hp
      exact absurd ⟨name, ps, value, hl⟩ h

/-- C74: the grammar is unambiguous: a text is a content line in at most one way. -/
theorem C74_unique {line n n' v v' : Str} {ps ps' : List (Str × List PVal)} (h : LineText line n ps v)
    (h' : LineText line n' ps' v') : n = n' ∧ ps = ps' ∧ v = v' := line_unique h h'

/-- C74: a line that gives no parameter twice is read with the parameters just as they are given. -/
theorem C74_distinct {line name value : Str} {ps : List (Str × List PVal)} (h : LineText line name ps value)
    (hn : (ps.map (·.1)).Nodup) : parseLine line = .ok ⟨upper name, ps, value⟩ := by
  rw [line_complete h]
  have : mergedParams ps = ps := by
    unfold mergedParams firstMentioned
    rw [List.dedup_eq_self.2 (List.nodup_reverse.2 hn), List.reverse_reverse, List.map_map]
    conv => rhs; rw [← List.map_id ps]
    apply List.map_congr_left
    rintro ⟨k, vs⟩ hp
    simp only [Function.comp, id, Prod.mk.injEq, true_and]
    unfold lastSaid
    have hf : ps.reverse.find? (fun p => p.1 = k) = some (k, vs) := by
      have hr : (ps.reverse.map (·.1)).Nodup := by rw [List.map_reverse]; exact List.nodup_reverse.2 hn
      have hm : (k, vs) ∈ ps.reverse := List.mem_reverse.2 hp
      generalize ps.reverse = l at hr hm
      induction l with
      | nil => cases hm
      | cons q l ih =>
        simp only [List.map_cons, List.nodup_cons] at hr
        rw [List.find?_cons]
        rcases List.mem_cons.1 hm with rfl | hm
        · simp
        · have : q.1 ≠ k := fun e => hr.1 (e ▸ List.mem_map.2 ⟨_, hm, rfl⟩)
          simp only [this, decide_false]
          exact ih hr.2 hm
    rw [hf]
    rfl
  rw [this]

/-! ### C75 -/

theorem matchPlus_some {p : Char → Bool} {s : Str} : assertMatch (matchPlus p s) = .ok () ↔ ∃ c t, s = c :: t ∧ p c = true := by
  cases s with
  | nil => simp [matchPlus, assertMatch]
  | cons c t =>
    by_cases h : p c = true
    · simp [matchPlus, assertMatch, h]
    · simp [matchPlus, assertMatch, h]

theorem assertMatch_err {m : Option Nat} {e : PyErr} (h : assertMatch m = .error e) : e = .assertionError := by
  cases m <;> simp [assertMatch] at h
  exact h.symm

theorem checkVals_ok (vs : List PVal) : checkVals vs = .ok () := by
  induction vs with
  | nil => rfl
  | cons v vs ih =>
    simp only [checkVals, matchStar, assertMatch, bind, Except.bind, ite_self]
    exact ih

theorem isIdentChar_iff (c : Char) : isIdentChar c = true ↔ IdentChar c := by
  have e : ∀ a b : Char, (a ≤ b) ↔ a.toNat ≤ b.toNat := fun a b => by
    rw [Char.le_def, UInt32.le_iff_toNat_le]; rfl
  have hm : c = '-' ↔ c.toNat = 45 := by
    constructor
    · rintro rfl; rfl
    · intro h; exact Char.toNat_inj.1 h
  simp only [isIdentChar, IdentChar, Bool.or_eq_true, Bool.and_eq_true, decide_eq_true_iff, beq_iff_eq, e, hm]
  constructor
  · rintro (((h | h) | h) | h)
    · exact .inl h
    · exact .inr (.inl h)
    · exact .inr (.inr (.inl h))
    · exact .inr (.inr (.inr h))
  · rintro (h | h | h | h)
    · exact .inl (.inl (.inl h))
    · exact .inl (.inl (.inr h))
    · exact .inl (.inr h)
    · exact .inr h

theorem isControl_iff (c : Char) : isControl c = true ↔ IsControl c := by
  have ht : c = '\t' ↔ c.toNat = 9 := ⟨fun e => e ▸ rfl, fun h => Char.toNat_inj.1 h⟩
  simp only [isControl, IsControl, Bool.or_eq_true, Bool.and_eq_true, decide_eq_true_iff, beq_iff_eq, ne_eq, ht]
  omega

theorem identifier_of {s : Str} (h : s ≠ []) (ha : s.all isIdentChar = true) : Identifier s :=
  ⟨h, fun c hc => (isIdentChar_iff c).1 (List.all_eq_true.1 ha c hc)⟩

theorem qsafe_of {s : Str} (h : s.all isQsafe = true) : ∀ c ∈ s, ¬IsControl c ∧ c ≠ '"' := by
  intro c hc
  have := List.all_eq_true.1 h c hc
  simp only [isQsafe, Bool.and_eq_true, Bool.not_eq_true', bne_iff_ne] at this
  exact ⟨fun e => by simp [(isControl_iff c).2 e] at this, this.2⟩

theorem safe_of {s : Str} (h : s.all isSafe = true) : ∀ c ∈ s, ¬IsControl c ∧ c ≠ '"' ∧ c ≠ ',' ∧ c ≠ ':' ∧ c ≠ ';' := by
  intro c hc
  have := List.all_eq_true.1 h c hc
  simp only [isSafe, Bool.and_eq_true, Bool.not_eq_true', bne_iff_ne] at this
  exact ⟨fun e => by simp [(isControl_iff c).2 e] at this, this.1.1.1.2, this.1.1.2, this.1.2, this.2⟩

theorem value_of {s : Str} (h : s.all isValueChar = true) : ∀ c ∈ s, ¬IsControl c := by
  intro c hc e
  have := List.all_eq_true.1 h c hc
  simp [isValueChar, (isControl_iff c).2 e] at this

/-- The text begins with a letter or digit of ASCII or a hyphen. -/
def BeginsIdent (s : Str) : Prop := ∃ c t, s = c :: t ∧ IdentChar c

theorem assert_ident {s : Str} : assertMatch (matchPlus isIdentChar s) = .ok () ↔ BeginsIdent s := by
  rw [matchPlus_some]
  simp only [isIdentChar_iff, BeginsIdent]

theorem checkParams_ok (ps : Params) : checkParams ps = .ok () ↔ ∀ kv ∈ ps, BeginsIdent kv.1 := by
  induction ps with
  | nil => simp [checkParams]
  | cons kv ps ih =>
    obtain ⟨k, vs⟩ := kv
    rw [List.forall_mem_cons, ← ih, ← assert_ident]
    simp only [checkParams, bind, Except.bind, checkVals_ok]
    cases hk : assertMatch (matchPlus isIdentChar k) with
    | error e => simp
    | ok u => simp

theorem checkParams_err {ps : Params} {e : PyErr} (h : checkParams ps = .error e) : e = .assertionError := by
  induction ps with
  | nil => cases h
  | cons kv ps ih =>
    obtain ⟨k, vs⟩ := kv
    simp only [checkParams, bind, Except.bind, checkVals_ok] at h
    cases hk : assertMatch (matchPlus isIdentChar k) with
    | error e' => rw [hk] at h; cases h; exact assertMatch_err hk
    | ok u => rw [hk] at h; exact ih h

/-- C75: what `always_check` adds: the name and the names of the parameters must begin with a letter, a digit or a
hyphen, otherwise an `AssertionError` is raised.  Nothing else is checked. -/
theorem C75_check (line : Str) (cl : ContentLine) (h : parseLine line = .ok cl) :
    (BeginsIdent cl.name ∧ (∀ kv ∈ cl.params, BeginsIdent kv.1) → parseLineChecked line = .ok cl) ∧
    (¬(BeginsIdent cl.name ∧ ∀ kv ∈ cl.params, BeginsIdent kv.1) → parseLineChecked line = .error .assertionError) := by
  simp only [parseLineChecked, h, checkParsedLine, bind, Except.bind, matchStar]
  rw [← assert_ident, ← checkParams_ok]
  cases hn : assertMatch (matchPlus isIdentChar cl.name) with
  | error e => simp [assertMatch_err hn]
  | ok u =>
    cases hp : checkParams cl.params with
    | error e => simp [checkParams_err hp]
    | ok u => simp [assertMatch]

/-- C75: a text that the parser refuses is refused in the same way with `always_check`. -/
theorem C75_refused (line : Str) (e : PyErr) (h : parseLine line = .error e) : parseLineChecked line = .error e := by
  simp only [parseLineChecked, h, bind, Except.bind]

theorem not_delim_safe {a : Str} (h : ∀ c ∈ a, ¬IsControl c ∧ c ≠ '"' ∧ c ≠ ',' ∧ c ≠ ':' ∧ c ≠ ';') : NoDelim a :=
  ⟨fun hc => (h _ hc).2.2.2.1 rfl, fun hc => (h _ hc).2.2.2.2 rfl⟩

theorem pval_text {s : Str} {r : RawVal} {v : PVal} (h : PvalRe s r) (hq : r.1 = v.quoted) (ht : CaretText r.2 v.text) :
    ValueText s v := by
  obtain ⟨q, t⟩ := v
  cases h with
  | quoted h =>
    dsimp only at hq ht
    subst hq
    exact .quoted (fun hc => (h _ hc).2 rfl) ht
  | safe h =>
    dsimp only at hq ht
    subst hq
    refine .raw (not_delim_safe h) (fun hc => (h _ hc).2.2.1 rfl) ?_ ht
    intro e
    exact (h _ (List.mem_of_mem_head? e)).2.1 rfl

theorem pvals_text {s : Str} {rs : List RawVal} (h : PvalsRe s rs) : ∀ vs : List PVal,
    List.Forall₂ (fun a v => a.1 = v.quoted ∧ CaretText a.2 v.text) rs vs → LastGiven rs → ValuesText s vs := by
  induction h with
  | @one s r h =>
    intro vs hf hl
    cases hf with
    | cons h1 h2 =>
      cases h2
      refine .last (pval_text h h1.1 h1.2) ?_
      have := hl r rfl
      cases h with
      | quoted => simp
      | safe => exact this.resolve_left (by simp)
  | @more s r x rs h1 h2 ih =>
    intro vs hf hl
    cases hf with
    | cons h3 h4 =>
      refine .more (pval_text h1 h3.1 h3.2) (ih _ h4 ?_)
      intro v hv
      refine hl v ?_
      cases rs with
      | nil => cases hv
      | cons y rs => rw [List.getLast?_cons_cons]; exact hv

theorem ident_noDelim {s : Str} (h : Identifier s) : NoDelim s ∧ '=' ∉ s :=
  ⟨⟨fun hc => absurd (h.2 _ hc) (by decide), fun hc => absurd (h.2 _ hc) (by decide)⟩, fun hc => absurd (h.2 _ hc) (by decide)⟩

theorem params_text {p : Str} {rs : List (Str × List RawVal)} (h : ParamsRe p rs) : ∀ ps, Means rs ps →
    (∀ r ∈ rs, LastGiven r.2) → ParamsText p ps := by
  induction h with
  | nil => intro ps hm _; cases hm; exact .nil
  | @more n s r vs rs h1 h2 _ ih =>
    intro ps hm hl
    cases hm with
    | @cons _ q _ qs h3 h4 =>
      obtain ⟨k, ws⟩ := q
      obtain ⟨e, h3⟩ := h3
      dsimp only at e h3
      subst e
      exact .more (ident_noDelim h1).1 (ident_noDelim h1).2 (pvals_text h2 ws h3 (hl _ List.mem_cons_self))
        (ih qs h4 fun r hr => hl r (List.mem_cons_of_mem _ hr))

theorem identChar_upper {c : Char} (h : IdentChar c) : IdentChar c.toUpper := by
  have key : ∀ n : Fin 128, IdentChar (Char.ofNat n) → IdentChar (Char.ofNat n).toUpper := by decide
  have hc : c.toNat < 128 := by unfold IdentChar at h; omega
  have := key ⟨c.toNat, hc⟩
  simpa [Char.ofNat_toNat] using this (by simpa [Char.ofNat_toNat] using h)

theorem mem_merged {ps : List (Str × List PVal)} {kv : Str × List PVal} (h : kv ∈ mergedParams ps) : kv.1 ∈ ps.map (·.1) := by
  obtain ⟨k, hk, rfl⟩ := List.mem_map.1 h
  simpa [firstMentioned] using hk

theorem params_ident {p : Str} {rs : List (Str × List RawVal)} (h : ParamsRe p rs) : ∀ r ∈ rs, Identifier r.1 := by
  induction h with
  | nil => nofun
  | more h1 _ _ ih =>
    intro r hr
    rcases List.mem_cons.1 hr with rfl | hr
    · exact h1
    · exact ih r hr

theorem begins_ident {s : Str} (h : Identifier s) : BeginsIdent s := by
  obtain ⟨h1, h2⟩ := h
  cases s with
  | nil => exact absurd rfl h1
  | cons c t => exact ⟨c, t, rfl, h2 c List.mem_cons_self⟩

theorem means_mem {rs : List (Str × List RawVal)} {ps : List (Str × List PVal)} (h : Means rs ps) :
    ∀ q ∈ ps, ∃ r ∈ rs, r.1 = q.1 := by
  induction h with
  | nil => nofun
  | cons h1 _ ih =>
    intro q hq
    rcases List.mem_cons.1 hq with rfl | hq
    · exact ⟨_, List.mem_cons_self, h1.1⟩
    · obtain ⟨r, hr, e⟩ := ih q hq
      exact ⟨r, List.mem_cons_of_mem _ hr, e⟩

/-- C75: a line that `Patterns.LINE` matches is accepted, with and without `always_check`, and read as the groups of the
pattern, provided that the last value of every parameter is not an empty text without quotes and that the carets in
the values mean something.  Missing: without this proviso (`C75_pattern_fails`), and the converse
(`C75_unmatched_fails`). -/
theorem C75_pattern_partial (line name value : Str) (rs : List (Str × List RawVal)) (ps : List (Str × List PVal))
    (h : LineRe line name rs value) (hl : ∀ r ∈ rs, LastGiven r.2) (hm : Means rs ps) :
    parseLine line = .ok ⟨upper name, mergedParams ps, value⟩ ∧
    parseLineChecked line = .ok ⟨upper name, mergedParams ps, value⟩ := by
  obtain ⟨h1, -, p, h3, h4⟩ := h
  have hp := line_complete ⟨(ident_noDelim h1).1, p, params_text h3 ps hm hl, h4⟩
  refine ⟨hp, (C75_check line _ hp).1 ⟨?_, fun kv hkv => ?_⟩⟩
  · obtain ⟨c, t, rfl, hc⟩ := begins_ident h1
    exact ⟨c.toUpper, upper t, rfl, identChar_upper hc⟩
  · have hk := mem_merged hkv
    obtain ⟨q, hq, e⟩ := List.mem_map.1 hk
    have hid := params_ident h3
    have : ∃ r ∈ rs, r.1 = q.1 := means_mem hm q hq
    obtain ⟨r, hr, e'⟩ := this
    rw [← e, ← e']
    exact begins_ident (hid r hr)

/-- C75 fails one way: `A;B=:x` is matched by `Patterns.LINE` but refused, and so is `A;B=^x:y`. -/
theorem C75_pattern_fails :
    (LineRe "A;B=:x".toList "A".toList [("B".toList, [(false, [])])] "x".toList ∧
      parseLine "A;B=:x".toList = .error .parseError) ∧
    (LineRe "A;B=^x:y".toList "A".toList [("B".toList, [(false, "^x".toList)])] "y".toList ∧
      parseLine "A;B=^x:y".toList = .error .parseError) := by
  have hA : Identifier "A".toList := identifier_of (by decide +kernel) (by decide +kernel)
  have hB : Identifier "B".toList := identifier_of (by decide +kernel) (by decide +kernel)
  exact ⟨⟨⟨hA, value_of (by decide +kernel), _, .more hB (.one (.safe (a := []) nofun)) .nil, by decide +kernel⟩, by decide +kernel⟩,
    ⟨hA, value_of (by decide +kernel), _, .more hB (.one (.safe (a := "^x".toList) (safe_of (by decide +kernel)))) .nil,
      by decide +kernel⟩, by decide +kernel⟩

/-- C75 fails the other way: with `always_check`, a line is accepted whose name contains a space, whose parameter has a
name with a quote and a value with a quote and a control character, and whose value contains a control character,
although `Patterns.LINE` does not match it in any way. -/
theorem C75_unmatched_fails : parseLineChecked "A B;C\"=x\"\x01:\x02".toList =
      .ok ⟨"A B".toList, [("C\"".toList, [⟨false, "x\"\x01".toList⟩])], "\x02".toList⟩ ∧
    ∀ name rs value, ¬LineRe "A B;C\"=x\"\x01:\x02".toList name rs value := by
  refine ⟨by decide +kernel, ?_⟩
  rintro name rs value ⟨h1, -, p, h3, h4⟩
  have hn : NoDelim "A B".toList := by decide +kernel
  obtain ⟨d, t, e, hd⟩ : ∃ d t, p ++ ':' :: value = d :: t ∧ isDelim d = true := by
    cases h3 with
    | nil => exact ⟨':', value, rfl, by decide⟩
    | more => exact ⟨';', _, rfl, by decide⟩
  rw [List.append_assoc, e] at h4
  have h5 := takeWhile_split (p := fun c => !isDelim c) (a := name) (b := t) (c := d)
    (fun x hx => by simp [noDelim_iff.1 (ident_noDelim h1).1 x hx]) (by simp [hd])
  rw [← h4] at h5
  have h6 : ' ' ∈ name := by
    rw [← h5]
    decide +kernel
  exact absurd (h1.2 _ h6) (by decide)

/-! ### Examples -/

/-- A line with a parameter given twice, quoted and plain values, and carets. -/
def exGrammarLine : Str := "attendee;X=\"a;b\",c;Role=^^^n;X=,z=\":mailto:x;y".toList

theorem exGrammarLine_text : LineText exGrammarLine "attendee".toList
    [("X".toList, [⟨true, "a;b".toList⟩, ⟨false, "c".toList⟩]), ("Role".toList, [⟨false, "^\n".toList⟩]),
      ("X".toList, [⟨false, []⟩, ⟨false, "z=\"".toList⟩])] "mailto:x;y".toList := by
  have pl : ∀ s : Str, '^' ∉ s → CaretText s s := by
    intro s
    induction s with
    | nil => intro _; exact .nil
    | cons c s ih => intro h; exact .plain c (fun e => h (by simp [e])) (ih fun e => h (by simp [e]))
  refine ⟨by decide +kernel, _, .more (by decide +kernel) (by decide +kernel)
    (.more (.quoted (a := "a;b".toList) (by decide +kernel) (pl _ (by decide +kernel)))
      (.last (.raw (a := "c".toList) (by decide +kernel) (by decide +kernel) (by decide +kernel) (pl _ (by decide +kernel))) (by decide +kernel)))
    (.more (by decide +kernel) (by decide +kernel)
      (.last (.raw (a := "^^^n".toList) (by decide +kernel) (by decide +kernel) (by decide +kernel) (.caret (.newline .nil))) (by decide +kernel))
      (.more (by decide +kernel) (by decide +kernel)
        (.more (.raw (a := []) (by decide +kernel) (by decide +kernel) (by decide +kernel) .nil)
          (.last (.raw (a := "z=\"".toList) (by decide +kernel) (by decide +kernel) (by decide +kernel) (pl _ (by decide +kernel))) (by decide +kernel)))
        .nil)), by decide +kernel⟩

/-- The parameter given twice keeps its place and takes the last values. -/
example : parseLine exGrammarLine = .ok ⟨"ATTENDEE".toList,
    [("X".toList, [⟨false, []⟩, ⟨false, "z=\"".toList⟩]), ("Role".toList, [⟨false, "^\n".toList⟩])], "mailto:x;y".toList⟩ :=
  (C74_accepts _ _).2 ⟨_, _, _, exGrammarLine_text, by decide +kernel⟩

/-- A text without a colon is no content line. -/
example : ¬∃ name ps value, LineText "A;B=C".toList name ps value := (C74_rejects _).1 (by decide +kernel)

/-- A line without repeated parameters. -/
example : parseLine "x;Y=1:2".toList = .ok ⟨"X".toList, [("Y".toList, [⟨false, "1".toList⟩])], "2".toList⟩ :=
  C74_distinct (name := "x".toList) (ps := [("Y".toList, [⟨false, "1".toList⟩])])
    ⟨by decide +kernel, _, .more (by decide +kernel) (by decide +kernel)
      (.last (.raw (a := ['1']) (by decide +kernel) (by decide +kernel) (by decide +kernel) (.plain '1' (by decide) .nil)) (by decide +kernel)) .nil,
      by decide +kernel⟩ (by decide +kernel)

/-- Names that begin with another character are refused only with `always_check`. -/
example : parseLine " X:1".toList = .ok ⟨" X".toList, [], "1".toList⟩ ∧ parseLineChecked " X:1".toList = .error .assertionError :=
  ⟨by decide +kernel, (C75_check _ _ (by decide +kernel : parseLine " X:1".toList = .ok ⟨" X".toList, [], "1".toList⟩)).2 (by
    rintro ⟨⟨c, t, h, hc⟩, -⟩
    have e : ' ' = c := (List.cons.inj (show ' ' :: 'X' :: [] = c :: t from h)).1
    exact absurd (e ▸ hc) (by decide))⟩

/-- A line that the pattern matches. -/
example : parseLineChecked "a;b=\"c\":d".toList = .ok ⟨"A".toList, [("b".toList, [⟨true, "c".toList⟩])], "d".toList⟩ :=
  (C75_pattern_partial _ "a".toList "d".toList [("b".toList, [(true, "c".toList)])] [("b".toList, [⟨true, "c".toList⟩])]
    ⟨identifier_of (by decide +kernel) (by decide +kernel), value_of (by decide +kernel), _,
      .more (identifier_of (by decide +kernel) (by decide +kernel)) (.one (.quoted (a := ['c']) (qsafe_of (by decide +kernel)))) .nil,
      by decide +kernel⟩
    (by
      intro r hr v hv
      rw [List.mem_singleton.1 hr] at hv
      exact .inl (by rw [← Option.some.inj hv]; rfl))
    (.cons ⟨rfl, .cons ⟨rfl, .plain 'c' (by decide) .nil⟩ .nil⟩ .nil)).2

end Ics
