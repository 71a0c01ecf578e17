import Verif.Spec.Located
import Verif.Proofs.LineParser

/-
What parse errors of a line say is so.
-/
namespace Ics

/-- The list has the positions of all colons and semicolons from `p` on, in order. -/
structure Delims (line : Str) (p : Nat) (l : List Nat) : Prop where
  sorted : l.Pairwise (· < ·)
  mem : ∀ i, i ∈ l ↔ p ≤ i ∧ ∃ c, line[i]? = some c ∧ isDelim c = true

theorem isDelim_iff {c : Char} : isDelim c = true ↔ c = ':' ∨ c = ';' := by
  simp only [isDelim, Bool.or_eq_true, beq_iff_eq]

theorem delims_from (s : Str) : ∀ (line : Str) (i : Nat), line.drop i = s → Delims line i (delimsFrom i s) := by
  induction s with
  | nil =>
    intro line i h
    refine ⟨.nil, fun j => ⟨nofun, fun ⟨h1, c, h2, _⟩ => ?_⟩⟩
    have hl : line.length ≤ i := List.drop_eq_nil_iff.1 h
    rw [List.getElem?_eq_none (by omega)] at h2
    cases h2
  | cons c s ih =>
    intro line i h
    have h' : line.drop (i + 1) = s := by rw [← List.tail_drop, h, List.tail_cons]
    have hc : line[i]? = some c := by
      have : (line.drop i)[0]? = some c := by rw [h]; rfl
      rwa [List.getElem?_drop] at this
    obtain ⟨h1, h2⟩ := ih line (i + 1) h'
    rw [delimsFrom]
    split
    · rename_i hd
      refine ⟨.cons (fun j hj => ((h2 j).1 hj).1) h1, fun j => ?_⟩
      rw [List.mem_cons, h2]
      constructor
      · rintro (rfl | ⟨h3, h4⟩)
        · exact ⟨Nat.le_refl _, c, hc, hd⟩
        · exact ⟨by omega, h4⟩
      · rintro ⟨h3, h4⟩
        by_cases e : j = i
        · exact Or.inl e
        · exact Or.inr ⟨by omega, h4⟩
    · rename_i hd
      refine ⟨h1, fun j => ?_⟩
      rw [h2]
      constructor
      · rintro ⟨h3, h4⟩
        exact ⟨by omega, h4⟩
      · rintro ⟨h3, c', h4, h5⟩
        refine ⟨?_, c', h4, h5⟩
        by_cases e : j = i
        · subst e
          rw [hc] at h4
          cases h4
          exact absurd h5 hd
        · omega

theorem Delims.head {line : Str} {p d : Nat} {ds : List Nat} (h : Delims line p (d :: ds)) :
    p ≤ d ∧ (line[d]? = some ':' ∨ line[d]? = some ';') ∧
      ∀ i, p ≤ i → i < d → line[i]? ≠ some ':' ∧ line[i]? ≠ some ';' := by
  obtain ⟨h1, c, h2, h3⟩ := (h.mem d).1 List.mem_cons_self
  refine ⟨h1, ?_, ?_⟩
  · rcases isDelim_iff.1 h3 with rfl | rfl
    · exact Or.inl h2
    · exact Or.inr h2
  · intro i hi hd
    have hno : ∀ c, isDelim c = true → line[i]? ≠ some c := by
      intro c hc he
      have hm := (h.mem i).2 ⟨hi, c, he, hc⟩
      rcases List.mem_cons.1 hm with rfl | hm
      · omega
      · have := List.rel_of_pairwise_cons h.sorted hm
        omega
    exact ⟨hno _ rfl, hno _ rfl⟩

theorem Delims.tail {line : Str} {p d : Nat} {ds : List Nat} (h : Delims line p (d :: ds)) : Delims line (d + 1) ds := by
  refine ⟨h.sorted.of_cons, fun i => ⟨fun hi => ⟨List.rel_of_pairwise_cons h.sorted hi, ((h.mem i).1 (List.mem_cons_of_mem _ hi)).2⟩, ?_⟩⟩
  rintro ⟨h1, h2⟩
  have hp := ((h.mem d).1 List.mem_cons_self).1
  rcases List.mem_cons.1 ((h.mem i).2 ⟨by omega, h2⟩) with rfl | hm
  · omega
  · exact hm

theorem Delims.none {line : Str} {p : Nat} (h : Delims line p []) : ∀ c ∈ line.drop p, c ≠ ':' ∧ c ≠ ';' := by
  intro c hc
  obtain ⟨i, hi⟩ := List.mem_iff_getElem?.1 hc
  rw [List.getElem?_drop] at hi
  have hno : isDelim c ≠ true := fun hd => by
    have := (h.mem (p + i)).2 ⟨by omega, c, hi, hd⟩
    cases this
  exact ⟨fun e => hno (e ▸ rfl), fun e => hno (e ▸ rfl)⟩

/-- From a later position on. -/
theorem Delims.none_from {line : Str} {p q : Nat} (h : Delims line p []) (hq : p ≤ q) : Delims line q [] :=
  ⟨.nil, fun i => ⟨nofun, fun ⟨h1, h2⟩ => (h.mem i).2 ⟨by omega, h2⟩⟩⟩

theorem at_indexFrom_some {line : Str} {c : Char} {a i : Nat} (h : indexFrom line c a = some i) :
    a ≤ i ∧ line[i]? = some c := by
  unfold indexFrom at h
  obtain ⟨j, h1, rfl⟩ := Option.map_eq_some_iff.1 h
  refine ⟨by omega, ?_⟩
  obtain ⟨h2, h3⟩ := List.idxOf?_eq_some_iff.1 h1
  have : (line.drop a)[j]? = some c := by rw [List.getElem?_eq_getElem h2]; simpa using h3.1
  rw [List.getElem?_drop] at this
  rwa [Nat.add_comm]

theorem at_indexFrom_none {line : Str} {c : Char} {a : Nat} (h : indexFrom line c a = none) : c ∉ line.drop a := by
  unfold indexFrom at h
  exact List.idxOf?_eq_none_iff.1 (Option.map_eq_none_iff.1 h)

theorem at_findBetween_some {line : Str} {c : Char} {a b i : Nat} (h : findBetween line c a b = some i) :
    a ≤ i ∧ line[i]? = some c := by
  unfold findBetween at h
  obtain ⟨j, h1, rfl⟩ := Option.map_eq_some_iff.1 h
  refine ⟨by omega, ?_⟩
  obtain ⟨h2, h3⟩ := List.idxOf?_eq_some_iff.1 h1
  have : ((line.take b).drop a)[j]? = some c := by rw [List.getElem?_eq_getElem h2]; simpa using h3.1
  rw [List.getElem?_drop, List.getElem?_take] at this
  split at this
  · rwa [Nat.add_comm]
  · cases this

/-! ### Escapes -/

theorem unescape_error {w : Str} (s : Str) {e : LErr} (hs : s <:+ w) (h : unescapeParamL w s = .error e) :
    (e = .parse { msg := .endsInEscape w } ∧ (['^'] <:+ w ∨ ['^', '\n'] <:+: w)) ∨
    (∃ g, e = .parse { msg := .invalidEscape g w } ∧ ['^', g] <:+: w ∧ g ≠ 'n' ∧ g ≠ '^' ∧ g ≠ '\'' ∧ g ≠ '\n') := by
  have step : ∀ {a : Char} {r : Except LErr Str}, r.map (a :: ·) = .error e → r = .error e := by
    intro a r h
    cases r with
    | ok x => cases h
    | error x => cases h; rfl
  have two : ∀ {a b : Char} {t : Str}, (a :: b :: t) <:+ w → [a, b] <:+: w := by
    rintro a b t ⟨u, hu⟩
    exact ⟨u, t, by rw [← hu]; simp⟩
  fun_induction unescapeParamL w s with
  | case1 => cases h
  | case2 s ih => exact ih (((List.suffix_cons _ _).trans (List.suffix_cons _ _)).trans hs) (step h)
  | case3 s _ ih => exact ih (((List.suffix_cons _ _).trans (List.suffix_cons _ _)).trans hs) (step h)
  | case4 s _ _ ih => exact ih (((List.suffix_cons _ _).trans (List.suffix_cons _ _)).trans hs) (step h)
  | case5 s => cases h; exact Or.inl ⟨rfl, Or.inr (two hs)⟩
  | case6 c s h1 h2 h3 h4 => cases h; exact Or.inr ⟨c, rfl, two hs, h1, h2, h3, h4⟩
  | case7 => cases h; exact Or.inl ⟨rfl, Or.inl hs⟩
  | case8 c s _ _ ih => exact ih ((List.suffix_cons _ _).trans hs) (step h)

theorem unescape_culprit {s : Src} {a b : Nat} {e : ParseErr}
    (h : unescapeParamL (slice s.line a b) (slice s.line a b) = .error (.parse e)) : Culprit s e := by
  rcases unescape_error _ List.suffix_rfl h with ⟨h1, h2⟩ | ⟨g, h1, h2, h3⟩
  · cases h1; exact .endsInEscape a b _ rfl h2
  · cases h1; exact .invalidEscape a b _ g rfl h2 h3

/-! ### The parser -/

theorem getChar_some {s : Src} {i : Nat} {c : Char} (h : s.getChar i = .ok c) : s.line[i]? = some c := by
  unfold Src.getChar at h
  cases hc : s.line[i]? with
  | none => rw [hc] at h; cases h
  | some x => rw [hc] at h; cases h; rfl

theorem getChar_error {s : Src} {i : Nat} {e : ParseErr} : s.getChar i ≠ .error (.parse e) := by
  unfold Src.getChar
  cases s.line[i]? <;> nofun

theorem lt_of_getElem? {l : Str} {i : Nat} {c : Char} (h : l[i]? = some c) : i < l.length := by
  by_cases hi : i < l.length
  · exact hi
  · rw [List.getElem?_eq_none (by omega)] at h; cases h

/-- Skipping gives the delimiters from there on. -/
theorem skip_delims (s : Src) {q p d : Nat} {ds : List Nat} (h : Delims s.line q (d :: ds)) (hq : q ≤ p) :
    (∃ d' ds', s.skipDelims d ds p = .ok (d', ds') ∧ Delims s.line p (d' :: ds')) ∨
    (s.skipDelims d ds p = .error (s.error .noSeparator) ∧ Delims s.line p []) := by
  induction ds generalizing q d with
  | nil =>
    rw [Src.skipDelims]
    split
    · exact Or.inr ⟨rfl, h.tail.none_from (by omega)⟩
    · refine Or.inl ⟨d, [], rfl, h.sorted, fun i => ?_⟩
      rw [h.mem]
      constructor
      · rintro ⟨h1, h2⟩
        refine ⟨?_, h2⟩
        have := List.mem_singleton.1 ((h.mem i).2 ⟨h1, h2⟩)
        omega
      · rintro ⟨h1, h2⟩
        exact ⟨by omega, h2⟩
  | cons x ds ih =>
    rw [Src.skipDelims]
    split
    · exact ih h.tail (by omega)
    · refine Or.inl ⟨d, x :: ds, rfl, h.sorted, fun i => ?_⟩
      rw [h.mem]
      constructor
      · rintro ⟨h1, h2⟩
        refine ⟨?_, h2⟩
        rcases List.mem_cons.1 ((h.mem i).2 ⟨h1, h2⟩) with rfl | hm
        · omega
        · have := List.rel_of_pairwise_cons h.sorted hm
          omega
      · rintro ⟨h1, h2⟩
        exact ⟨by omega, h2⟩

/-- A value begins after an equals sign or comma, and the delimiters are known from there on. -/
structure AtValue (s : Src) (st : PSt) : Prop where
  delims : ∃ q ≤ st.pvs, Delims s.line q (st.delim :: st.delims)
  before : ∃ i, st.pvs = i + 1 ∧ (s.line[i]? = some '=' ∨ s.line[i]? = some ',')

/-- What a step over a value leads to. -/
def StepOk (s : Src) : Except LErr (Bool × PSt) → Prop
  | .ok (true, st) => AtValue s st
  | .ok (false, st) => ∃ q, Delims s.line q (st.delim :: st.delims)
  | .error (.parse e) => Culprit s e
  | .error (.other _) => True

theorem quoted_step {s : Src} {st : PSt} (h : AtValue s st) (hc : s.line[st.pvs]? = some '"') :
    StepOk s (s.parseQuoted st) := by
  obtain ⟨⟨q, hq, hd⟩, i, hi, hb⟩ := h
  unfold Src.parseQuoted
  dsimp only
  cases hx : indexFrom s.line '"' (st.pvs + 1) with
  | none =>
    rw [hi] at hc hx ⊢
    exact .missingQuote i hb hc (at_indexFrom_none hx)
  | some stop =>
    obtain ⟨h1, h2⟩ := at_indexFrom_some hx
    dsimp only
    cases hu : unescapeParamL (slice s.line (st.pvs + 1) stop) (slice s.line (st.pvs + 1) stop) with
    | error e =>
      cases e with
      | other => trivial
      | parse e => exact unescape_culprit hu
    | ok v =>
      dsimp only
      rcases skip_delims s hd (p := stop + 1) (by omega) with ⟨d', ds', h3, h4⟩ | ⟨h3, h4⟩
      · rw [h3]
        dsimp only
        by_cases he : d' = stop + 1
        · rw [if_pos he]
          exact ⟨_, h4⟩
        · rw [if_neg he]
          obtain ⟨h5, h6, h7⟩ := h4.head
          cases hg : s.getChar (stop + 1) with
          | error e =>
            cases e with
            | other => trivial
            | parse e => exact absurd hg getChar_error
          | ok c =>
            dsimp only
            by_cases hcm : c = ','
            · rw [if_pos hcm]
              exact ⟨⟨stop + 1, by simp, h4⟩, stop + 1, rfl, Or.inr (hcm ▸ getChar_some hg)⟩
            · rw [if_neg hcm]
              refine .trailingContent stop d' h2 (by omega) h6 (fun i hi => h7 i (by omega)) ?_
              rw [getChar_some hg]
              exact fun h => hcm (Option.some.inj h)
      · rw [h3]
        refine .noSeparator (stop + 1) (Or.inr (Or.inr h2)) ?_ h4.none
        have := lt_of_getElem? h2
        omega

theorem raw_step {s : Src} {st : PSt} (h : AtValue s st) : StepOk s (s.parseRaw st) := by
  obtain ⟨⟨q, hq, hd⟩, i, hi, hb⟩ := h
  unfold Src.parseRaw
  cases hx : findBetween s.line ',' st.pvs st.delim with
  | none =>
    dsimp only
    cases hu : unescapeParamL (slice s.line st.pvs st.delim) (slice s.line st.pvs st.delim) with
    | error e =>
      cases e with
      | other => trivial
      | parse e => exact unescape_culprit hu
    | ok v => exact ⟨q, hd⟩
  | some comma =>
    obtain ⟨h1, h2⟩ := at_findBetween_some hx
    dsimp only
    cases hu : unescapeParamL (slice s.line st.pvs comma) (slice s.line st.pvs comma) with
    | error e =>
      cases e with
      | other => trivial
      | parse e => exact unescape_culprit hu
    | ok v => exact ⟨⟨q, by dsimp only; omega, hd⟩, comma, rfl, Or.inr h2⟩

theorem vals_step {s : Src} (n : Nat) {st : PSt} (h : AtValue s st) :
    match s.parseVals n st with
    | .ok st' => ∃ q, Delims s.line q (st'.delim :: st'.delims)
    | .error (.parse e) => Culprit s e
    | .error (.other _) => True := by
  induction n generalizing st with
  | zero => trivial
  | succ n ih =>
    rw [Src.parseVals]
    by_cases hle : st.delim ≤ st.pvs
    · rw [if_pos hle]
      obtain ⟨⟨q, hq, hd⟩, i, hi, hb⟩ := h
      rw [hi] at hle ⊢
      exact .emptyValue st.delim i hd.head.2.1 hb hle
    · rw [if_neg hle]
      cases hg : s.getChar st.pvs with
      | error e =>
        cases e with
        | other => trivial
        | parse e => exact absurd hg getChar_error
      | ok c =>
        dsimp only
        have key : StepOk s (if c = '"' then s.parseQuoted st else s.parseRaw st) := by
          split
          · rename_i hc
            exact quoted_step h (hc ▸ getChar_some hg)
          · exact raw_step h
        revert key
        generalize (if c = '"' then s.parseQuoted st else s.parseRaw st) = r
        intro key
        rcases r with (e | e) | ⟨b, st'⟩
        · exact key
        · trivial
        · cases b
          · exact key
          · exact ih key

theorem param_step {s : Src} {q d : Nat} {ds : List Nat} (h : Delims s.line q (d :: ds)) (hd : s.line[d]? = some ';') :
    match s.parseParam d ds with
    | .ok (_, st) => ∃ q, Delims s.line q (st.delim :: st.delims)
    | .error (.parse e) => Culprit s e
    | .error (.other _) => True := by
  unfold Src.parseParam
  cases hx : indexFrom s.line '=' (d + 1) with
  | none => exact .paramWithoutValue d hd (at_indexFrom_none hx)
  | some eq =>
    obtain ⟨h1, h2⟩ := at_indexFrom_some hx
    dsimp only
    unfold Src.nextDelim
    cases ds with
    | nil =>
      refine .noSeparator (d + 1) (Or.inr (Or.inl hd)) ?_ h.tail.none
      have := lt_of_getElem? hd
      omega
    | cons x ds =>
      dsimp only
      have hv : AtValue s { delims := ds, delim := x, pvs := eq + 1, vals := [] } :=
        ⟨⟨d + 1, by dsimp only; omega, h.tail⟩, eq, rfl, Or.inl h2⟩
      have := vals_step (s.line.length + 1) hv
      revert this
      generalize s.parseVals (s.line.length + 1) { delims := ds, delim := x, pvs := eq + 1, vals := [] } = r
      intro this
      rcases r with (e | e) | st'
      · exact this
      · trivial
      · exact this

theorem loop_step {s : Src} (name : Str) (n : Nat) (ps : Params) {q d : Nat} {ds : List Nat}
    (h : Delims s.line q (d :: ds)) {e : ParseErr} (he : s.parseLoop name n ps d ds = .error (.parse e)) : Culprit s e := by
  induction n generalizing ps q d ds with
  | zero => cases he
  | succ n ih =>
    rw [Src.parseLoop] at he
    cases hg : s.getChar d with
    | error x =>
      rw [hg] at he
      cases he
      exact absurd hg getChar_error
    | ok c =>
      rw [hg] at he
      dsimp only at he
      split at he
      · cases he
      · split at he
        · rename_i hc
          have hp := param_step h (hc ▸ getChar_some hg)
          revert hp he
          generalize s.parseParam d ds = r
          intro he hp
          rcases r with (x | x) | ⟨nm, st⟩
          · cases he; exact hp
          · cases he
          · obtain ⟨q', hq'⟩ := hp
            exact ih _ hq' he
        · cases he

/-- What a parse error of a line says is so. -/
theorem parse_culprit {s : Src} {e : ParseErr} (h : s.parse = .error (.parse e)) : Culprit s e := by
  have hd := delims_from s.line s.line 0 rfl
  unfold Src.parse at h
  revert hd h
  generalize delimsFrom 0 s.line = l
  intro h hd
  cases l with
  | nil =>
    cases h
    exact .noSeparator 0 (Or.inl rfl) (Nat.zero_le _) hd.none
  | cons d ds =>
    dsimp only at h
    cases hp : s.parseLoop (s.line.take d) (s.line.length + 1) [] d ds with
    | ok x => rw [hp] at h; cases h
    | error x =>
      rw [hp] at h
      cases h
      exact loop_step _ _ _ hd hp

end Ics
