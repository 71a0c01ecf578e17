import Verif.Proofs.Numbered
import Verif.Proofs.Culprit
import Verif.Proofs.Number

/-
C78: line numbers.  C79: what parse errors say.
-/
namespace Ics

/-! ### C78 -/

/-- Forgetting line numbers and details of errors gives what `Model/Parser.lean` computes. -/
theorem C78_same (txt : Str) : (nrItemsOf txt).erase NrItem.erase = stringToContainers txt := erase_nrItems _

theorem lines_noBreak (txt : Str) : ∀ l ∈ stringToLines txt, NoBreak l := splitLines_noBreak [] txt ⟨nofun, nofun⟩

/-- C78: `unfold_lines` yields, in order, exactly the content lines of the text, each with the number, counted from 0 and
counting empty lines, of the physical line on which it begins.  It fails exactly if the first line that is not empty is a
continuation; then it yields nothing and names that line. -/
theorem C78_unfold (txt : Str) :
    let ls := stringToLines txt
    let g := unfoldNr none 0 ls
    (g.items.Pairwise fun p q => p.1 < q.1) ∧
    (g.err = none → (∀ n t, (n, t) ∈ g.items ↔ BeginsAt ls n ∧ t = contentAt ls n) ∧
      ∀ i l, ls[i]? = some l → startsFold l = true → ∃ j < i, BeginsAt ls j) ∧
    ∀ e, g.err = some e → g.items = [] ∧ ∃ n l, e = .parse { msg := .strayContinuation n l } ∧ ls[n]? = some l ∧
      startsFold l = true ∧ ∀ j < n, ls[j]? = some [] := by
  intro ls g
  have h : g = _ := unfoldNr_none ls (lines_noBreak txt) 0
  cases hs : Stray 0 ls with
  | none =>
    rw [hs] at h
    rw [h]
    refine ⟨contentFrom_sorted ls 0, fun _ => ⟨fun n t => ?_, stray_none hs⟩, nofun⟩
    have := contentFrom_mem ls 0 n t
    rwa [Nat.zero_add] at this
  | some x =>
    rw [hs] at h
    rw [h]
    refine ⟨.nil, nofun, fun e he => ⟨rfl, ?_⟩⟩
    cases he
    obtain ⟨i, h1, h2, h3, h4⟩ := stray_some hs
    rw [Nat.zero_add] at h1
    subst h1
    exact ⟨_, _, rfl, h2, h3, h4⟩

/-- Every item of `unfold_lines` is the content line that begins there. -/
theorem unfold_mem {txt : Str} {p : Nat × Str} (h : p ∈ (unfoldNr none 0 (stringToLines txt)).items) :
    BeginsAt (stringToLines txt) p.1 ∧ p.2 = contentAt (stringToLines txt) p.1 := by
  obtain ⟨-, h2, h3⟩ := C78_unfold txt
  cases he : (unfoldNr none 0 (stringToLines txt)).err with
  | none => exact ((h2 he).1 p.1 p.2).1 h
  | some e =>
    rw [(h3 e he).1] at h
    cases h

theorem sorted_of_prefix {ps : List (Nat × Str)} {ls : List NrLine}
    (h : List.Forall₂ (fun (p : Nat × Str) (l : NrLine) => l.nr = some p.1 ∧ parseLine p.2 = .ok l.line) ps ls) :
    ls.map NrLine.nr = ps.map fun p => some p.1 := by
  induction h with
  | nil => rfl
  | cons h _ ih => rw [List.map_cons, List.map_cons, h.1, ih]

/-- C78: every parsed content line has as `line_nr` the number of the physical line on which it begins: the content line
that begins there parses to it.  The numbers increase. -/
theorem C78_lines (txt : Str) :
    (∀ l ∈ (nrLines (stringToLines txt)).items, ∃ n, l.nr = some n ∧ BeginsAt (stringToLines txt) n ∧
      parseLine (contentAt (stringToLines txt) n) = .ok l.line) ∧
    ∃ ns : List Nat, (nrLines (stringToLines txt)).items.map NrLine.nr = ns.map some ∧ ns.Pairwise (· < ·) := by
  obtain ⟨ps, h1, h2⟩ := parseEachNr_nr (err := (unfoldNr none 0 (stringToLines txt)).err)
    (ls := (unfoldNr none 0 (stringToLines txt)).items)
  constructor
  · intro l hl
    have : ∃ p ∈ ps, l.nr = some p.1 ∧ parseLine p.2 = .ok l.line := by
      clear h1
      unfold nrLines at hl
      dsimp only at hl
      revert hl h2
      generalize (parseEachNr (unfoldNr none 0 (stringToLines txt)).err (unfoldNr none 0 (stringToLines txt)).items).items = ls
      intro h2 hl
      induction h2 with
      | nil => cases hl
      | cons h _ ih =>
        rcases List.mem_cons.1 hl with rfl | hl
        · exact ⟨_, List.mem_cons_self, h⟩
        · obtain ⟨p, hp, h⟩ := ih hl
          exact ⟨p, List.mem_cons_of_mem _ hp, h⟩
    obtain ⟨p, hp, h3, h4⟩ := this
    obtain ⟨h5, h6⟩ := unfold_mem (h1.subset hp)
    exact ⟨p.1, h3, h5, h6 ▸ h4⟩
  · refine ⟨ps.map Prod.fst, ?_, ?_⟩
    · rw [List.map_map]
      exact sorted_of_prefix h2
    · rw [List.pairwise_map]
      exact (C78_unfold txt).1.sublist h1.sublist

/-- C78: the lines inside the containers, at any depth, are among these, in the order of the text (the lines `BEGIN` and
`END` are left out). -/
theorem C78_nested (txt : Str) :
    List.Sublist (NrItem.linesOf (nrItemsOf txt).items) (nrLines (stringToLines txt)).items :=
  toContainersNr_lines _ _ _

/-- C78: if a container has a line number then it is that of the first content line in it. -/
theorem C78_container_partial (i : NrItem) (n : Nat) (h : i.lineNr = some n) : ∃ l ∈ i.lines.head?, l.nr = some n := by
  induction i using NrItem.lineNr.induct with
  | case1 l => exact ⟨l, rfl, h⟩
  | case2 => cases h
  | case3 name i is ih =>
    obtain ⟨l, h1, h2⟩ := ih h
    refine ⟨l, ?_, h2⟩
    rw [NrItem.lines, NrItem.linesOf]
    cases hl : i.lines with
    | nil => rw [hl] at h1; cases h1
    | cons a as => rw [hl] at h1; exact h1

/-- A calendar with an empty component first (used below). -/
def exNumbered : Str := "\nBEGIN:A\n\nBEGIN:B\nEND:B\nX:1\n\n 2\nEND:A\nY;Z=1:\n".toList

/-- C78: the number of a container is not that of its `BEGIN`, and there is none if it begins with an empty container. -/
theorem C78_container_fails :
    (nrItemsOf exNumbered).items.map NrItem.lineNr = [none, some 9] ∧
    (NrItem.linesOf (nrItemsOf exNumbered).items).map NrLine.nr = [some 5, some 9] ∧
    (nrItemsOf "BEGIN:A\nX:1\nEND:A".toList).items.map NrItem.lineNr = [some 1] := by decide +kernel

/-- C78: the line 5 of the example is folded. -/
example : BeginsAt (stringToLines exNumbered) 5 ∧ contentAt (stringToLines exNumbered) 5 = "X:12".toList :=
  ⟨⟨"X:1".toList, by decide +kernel, by decide⟩, by decide +kernel⟩

/-! ### C79 -/

/-- C79: whatever a `ParseError` of a content line says is so: the messages about the structure of the line have its number
and text, and the columns are those of the culprit.  The errors about escapes do not say where. -/
theorem C79_culprit (s : Src) (e : ParseErr) (h : s.parse = .error (.parse e)) : Culprit s e := parse_culprit h

/-- A line for each message. -/
example :
    Src.parse ⟨"NAME;A=\"x:y\"".toList, some 3⟩ = .error (.parse ⟨.noSeparator, some 3, .none, some "NAME;A=\"x:y\"".toList⟩) ∧
    Src.parse ⟨"NAME;A:x".toList, some 3⟩ = .error (.parse ⟨.paramWithoutValue, some 3, .at 5, some "NAME;A:x".toList⟩) ∧
    Src.parse ⟨"NAME;A=,:x".toList, some 3⟩ = .error (.parse ⟨.emptyValue, some 3, .range 8 8, some "NAME;A=,:x".toList⟩) ∧
    Src.parse ⟨"NAME;A=\"b:x".toList, some 3⟩ = .error (.parse ⟨.missingQuote, some 3, .at 8, some "NAME;A=\"b:x".toList⟩) ∧
    Src.parse ⟨"NAME;A=\"b\"c:x".toList, some 3⟩ =
      .error (.parse ⟨.trailingContent, some 3, .range 10 11, some "NAME;A=\"b\"c:x".toList⟩) ∧
    Src.parse ⟨"NAME;A=b^:x".toList, some 3⟩ = .error (.parse ⟨.endsInEscape "b^".toList, none, .none, none⟩) ∧
    Src.parse ⟨"NAME;A=b^c:x".toList, some 3⟩ = .error (.parse ⟨.invalidEscape 'c' "b^c".toList, none, .none, none⟩) := by
  decide +kernel

/-- Some line `BEGIN:name` was read. -/
def Begun (ls : List NrLine) (name : Str) : Prop := ∃ l ∈ ls, l.line.name = "BEGIN".toList ∧ l.line.value = name

/-- Some line `END:name` was read. -/
def Ended (ls : List NrLine) (name : Str) : Prop := ∃ l ∈ ls, l.line.name = "END".toList ∧ l.line.value = name

/-- The errors of nesting. -/
def NestingErr (ls : List NrLine) (err : Option LErr) (e : ParseErr) : Prop :=
  err = some (.parse e) ∨ (∃ name, e = { msg := .missingEnd name } ∧ Begun ls name) ∨
    ∃ name v, e = { msg := .expectedEnd name v } ∧ Begun ls name ∧ Ended ls v ∧ upper v ≠ upper name

theorem container_err {err : Option LErr} (all : List NrLine) (n : Nat) {name : Str} {acc : List NrItem}
    {ls : List NrLine} (hs : ls <:+ all) (hb : Begun all name) {e : ParseErr}
    (h : toContainerNr err n name acc ls = .error (.parse e)) : NestingErr all err e := by
  induction n generalizing name acc ls with
  | zero => cases h
  | succ n ih =>
    cases ls with
    | nil =>
      rw [toContainerNr] at h
      cases err with
      | none => cases h; exact Or.inr (Or.inl ⟨name, rfl, hb⟩)
      | some x =>
        injection h with h
        exact Or.inl (congrArg some h)
    | cons l ls =>
      have hl : l ∈ all := hs.subset List.mem_cons_self
      have hs' : ls <:+ all := (List.suffix_cons _ _).trans hs
      rw [toContainerNr] at h
      split at h
      · rename_i hn
        cases hr : toContainerNr err n l.line.value [] ls with
        | error x =>
          rw [hr] at h
          cases h
          exact ih hs' ⟨l, hl, hn, rfl⟩ hr
        | ok r =>
          rw [hr] at h
          obtain ⟨new, used, h1, -, -⟩ := toContainerNr_lines hr
          exact ih (List.IsSuffix.trans ⟨used, h1.symm⟩ hs') hb h
      · split at h
        · rename_i hn
          split at h
          · rename_i hne
            cases h
            exact Or.inr (Or.inr ⟨name, _, rfl, hb, ⟨l, hl, hn, rfl⟩, hne⟩)
          · unfold mkNrContainer at h
            by_cases hu : upper name = []
            · rw [if_pos hu] at h; cases h
            · rw [if_neg hu] at h; cases h
        · exact ih hs' hb h

theorem containers_err {err : Option LErr} (all : List NrLine) (n : Nat) {ls : List NrLine} (hs : ls <:+ all)
    {e : ParseErr} (h : (toContainersNr err n ls).err = some (.parse e)) : NestingErr all err e := by
  induction n generalizing ls with
  | zero =>
    cases ls with
    | nil => exact Or.inl h
    | cons => cases h
  | succ n ih =>
    cases ls with
    | nil => exact Or.inl h
    | cons l ls =>
      have hl : l ∈ all := hs.subset List.mem_cons_self
      have hs' : ls <:+ all := (List.suffix_cons _ _).trans hs
      rw [toContainersNr] at h
      split at h
      · rename_i hn
        cases hr : toContainerNr err (ls.length + 1) l.line.value [] ls with
        | error x =>
          rw [hr] at h
          cases h
          exact container_err all _ hs' ⟨l, hl, hn, rfl⟩ hr
        | ok r =>
          rw [hr] at h
          obtain ⟨new, used, h1, -, -⟩ := toContainerNr_lines hr
          exact ih (List.IsSuffix.trans ⟨used, h1.symm⟩ hs') h
      · exact ih hs' h

theorem parseEachNr_err {err : Option LErr} {ls : List (Nat × Str)} {e : ParseErr}
    (h : (parseEachNr err ls).err = some (.parse e)) :
    err = some (.parse e) ∨ ∃ p ∈ ls, Src.parse ⟨p.2, some p.1⟩ = .error (.parse e) := by
  induction ls with
  | nil => exact Or.inl h
  | cons p ls ih =>
    rw [parseEachNr] at h
    cases hp : Src.parse ⟨p.2, some p.1⟩ with
    | error x =>
      rw [hp] at h
      injection h with h
      exact Or.inr ⟨p, List.mem_cons_self, by rw [hp, h]⟩
    | ok l =>
      rw [hp] at h
      rcases ih h with h | ⟨q, hq, h⟩
      · exact Or.inl h
      · exact Or.inr ⟨q, List.mem_cons_of_mem _ hq, h⟩

/-- C79: a `ParseError` of parsing a text is of one of four kinds.  It is about a content line of the text, and names the
number of the line on which that begins and what is wrong with it; or it is about a continuation at the begin of the text;
or a `BEGIN` without `END`; or an `END` that does not fit. -/
theorem C79_text (txt : Str) (e : ParseErr) (h : (nrItemsOf txt).err = some (.parse e)) :
    let ls := stringToLines txt
    (∃ n, BeginsAt ls n ∧ Culprit ⟨contentAt ls n, some n⟩ e) ∨
    (∃ n l, e = { msg := .strayContinuation n l } ∧ ls[n]? = some l ∧ startsFold l = true ∧ ∀ j < n, ls[j]? = some []) ∨
    (∃ name, e = { msg := .missingEnd name } ∧ Begun (nrLines ls).items name) ∨
    ∃ name v, e = { msg := .expectedEnd name v } ∧ Begun (nrLines ls).items name ∧ Ended (nrLines ls).items v ∧
      upper v ≠ upper name := by
  intro ls
  rcases containers_err (nrLines ls).items _ List.suffix_rfl h with h | h | h
  · rcases parseEachNr_err h with h | ⟨p, hp, h⟩
    · obtain ⟨-, n, l, h1, h2⟩ := (C78_unfold txt).2.2 _ h
      injection h1 with h1
      exact Or.inr (Or.inl ⟨n, l, h1, h2⟩)
    · obtain ⟨h1, h2⟩ := unfold_mem hp
      rw [h2] at h
      exact Or.inl ⟨p.1, h1, parse_culprit h⟩
  · exact Or.inr (Or.inr (Or.inl h))
  · exact Or.inr (Or.inr (Or.inr h))

/-- A text for each kind. -/
example :
    (nrItemsOf "BEGIN:A\n\nX;Y\n :1\n".toList).err =
      some (.parse ⟨.paramWithoutValue, some 2, .at 2, some "X;Y:1".toList⟩) ∧
    (nrItemsOf "\n\n X:1".toList).err = some (.parse { msg := .strayContinuation 2 " X:1".toList }) ∧
    (nrItemsOf "BEGIN:A\nX:1".toList).err = some (.parse { msg := .missingEnd "A".toList }) ∧
    (nrItemsOf "BEGIN:A\nEND:B\n".toList).err = some (.parse { msg := .expectedEnd "A".toList "B".toList }) := by
  decide +kernel

theorem unfoldNr_notSplit {n c : Nat} {line : Str} (ls : List Str) (cur : Option (Nat × Str)) (nr : Nat)
    (h : (unfoldNr cur nr ls).err = some (.parse { msg := .notSplit n c line })) :
    nr ≤ n ∧ ∃ l, ls[n - nr]? = some l ∧ line = rstripNl l ∧ (∃ x, line[c]? = some x ∧ isNl x = true) ∧
      ∀ j < c, ∀ x, line[j]? = some x → isNl x = false := by
  induction ls generalizing cur nr with
  | nil => cases h
  | cons l ls ih =>
    have step : ∀ cur, (unfoldNr cur (nr + 1) ls).err = some (.parse { msg := .notSplit n c line }) →
        nr ≤ n ∧ ∃ l', (l :: ls)[n - nr]? = some l' ∧ line = rstripNl l' ∧ (∃ x, line[c]? = some x ∧ isNl x = true) ∧
          ∀ j < c, ∀ x, line[j]? = some x → isNl x = false := by
      intro cur h
      obtain ⟨h1, l', h2, h3⟩ := ih cur (nr + 1) h
      refine ⟨by omega, l', ?_, h3⟩
      have : n - nr = (n - (nr + 1)) + 1 := by omega
      rw [this, List.getElem?_cons_succ, h2]
    unfold unfoldNr at h
    dsimp only at h
    split at h
    · exact step _ h
    · split at h
      · rename_i i hi
        injection h with h
        injection h with h
        injection h with h
        injection h with h1 h2 h3
        subst h1 h2 h3
        refine ⟨Nat.le_refl _, l, by rw [Nat.sub_self]; rfl, rfl, ?_, ?_⟩
        · obtain ⟨h1, h2, _⟩ := List.findIdx?_eq_some_iff_getElem.1 hi
          exact ⟨_, List.getElem?_eq_getElem h1, h2⟩
        · obtain ⟨h1, _, h3⟩ := List.findIdx?_eq_some_iff_getElem.1 hi
          intro j hj x hx
          have hlt : j < (rstripNl l).length := Nat.lt_trans hj h1
          rw [List.getElem?_eq_getElem hlt] at hx
          injection hx with hx
          have := h3 j hj
          rw [hx] at this
          exact Bool.eq_false_iff.2 this
      · split at h
        · split at h
          · cases h
          · exact step _ h
        · split at h
          · exact step _ h
          · exact step _ h

/-- C79: lines given one by one may have a line break inside: the error says the line, and the column of the first one. -/
theorem C79_not_split (ls : List Str) (n c : Nat) (line : Str)
    (h : (nrLines ls).err = some (.parse { msg := .notSplit n c line })) :
    ∃ l, ls[n]? = some l ∧ line = rstripNl l ∧ (∃ x, line[c]? = some x ∧ isNl x = true) ∧
      ∀ j < c, ∀ x, line[j]? = some x → isNl x = false := by
  rcases parseEachNr_err h with h | ⟨p, hp, h⟩
  · exact (unfoldNr_notSplit ls none 0 h).2
  · have := parse_culprit h
    cases this

example : (nrLines ["A:1".toList, "B:2\nC:3\n".toList]).err =
    some (.parse { msg := .notSplit 1 3 "B:2\nC:3".toList }) := by decide +kernel

/-! ### Messages -/

/-- C79: the text of an error with a line number: the number, the columns, the message, the line and the state. -/
theorem C79_str (repr : Str → Str) (found state : Str) (e : ParseErr) (n : Nat) (l : Str) (hn : e.nr = some n)
    (hl : e.line = some l) (h0 : l ≠ []) (hs : state ≠ []) :
    e.str repr found state = "Line ".toList ++ natStr n ++ e.col.text ++ ' ' :: e.msg.text repr found ++ ": ".toList ++ l ++
      " (".toList ++ state ++ ")".toList := by
  unfold ParseErr.str parseErrorStr
  rw [hn, hl]
  cases l with
  | nil => exact absurd rfl h0
  | cons a l =>
    cases state with
    | nil => exact absurd rfl hs
    | cons b state => cases e.col <;> simp [Col.text]

/-- C79: an empty line is not shown. -/
theorem C79_str_empty (repr : Str → Str) (found state : Str) (e : ParseErr) (n : Nat) (hn : e.nr = some n)
    (hl : e.line = some []) (hs : state ≠ []) :
    e.str repr found state = "Line ".toList ++ natStr n ++ e.col.text ++ ' ' :: e.msg.text repr found ++
      " (".toList ++ state ++ ")".toList := by
  unfold ParseErr.str parseErrorStr
  rw [hn, hl]
  cases state with
  | nil => exact absurd rfl hs
  | cons b state => cases e.col <;> simp [Col.text]

example : ParseErr.str id [] "a".toList ⟨.noSeparator, some 3, .none, some []⟩ =
    "Line 3 ".toList ++ Msg.text id [] .noSeparator ++ " (a)".toList := by decide +kernel

/-- C79: the text of an error without a line number is that of its message. -/
theorem C79_str_none (repr : Str → Str) (found state : Str) (e : ParseErr) (hn : e.nr = none) (hl : e.line = none) :
    e.str repr found state = "Line ".toList ++ e.msg.text repr found := by
  unfold ParseErr.str parseErrorStr
  rw [hn, hl]
  simp

theorem split_digits {a b x y : Str} (ha : ∀ c ∈ a, isDigit c = true) (hb : ∀ c ∈ b, isDigit c = true)
    (hx : ∀ c ∈ x.head?, isDigit c = false) (hy : ∀ c ∈ y.head?, isDigit c = false) (h : a ++ x = b ++ y) :
    a = b ∧ x = y := by
  induction a generalizing b with
  | nil =>
    cases b with
    | nil => exact ⟨rfl, h⟩
    | cons c b =>
      have h : x = c :: (b ++ y) := h
      have := hx c (by rw [h]; rfl)
      rw [hb c List.mem_cons_self] at this
      cases this
  | cons c a ih =>
    cases b with
    | nil =>
      have h : c :: (a ++ x) = y := h
      have := hy c (by rw [← h]; rfl)
      rw [ha c List.mem_cons_self] at this
      cases this
    | cons d b =>
      have h : c :: (a ++ x) = d :: (b ++ y) := h
      injection h with h1 h2
      obtain ⟨h3, h4⟩ := ih (fun c hc => ha c (List.mem_cons_of_mem _ hc)) (fun c hc => hb c (List.mem_cons_of_mem _ hc)) h2
      exact ⟨by rw [h1, h3], h4⟩

theorem natStr_inj {n m : Nat} (h : natStr n = natStr m) : n = m := by
  have h1 := (natStr_digits n).2.2
  have h2 := (natStr_digits m).2.2
  rw [h] at h1
  exact h1.trans h2.symm

theorem split_number {n m : Nat} {x y : Str} (hx : ∀ c ∈ x.head?, isDigit c = false)
    (hy : ∀ c ∈ y.head?, isDigit c = false) (h : natStr n ++ x = natStr m ++ y) : n = m ∧ x = y := by
  obtain ⟨h1, h2⟩ := split_digits natStr_digit natStr_digit hx hy h
  exact ⟨natStr_inj h1, h2⟩

theorem str_start (repr : Str → Str) (found state : Str) (e : ParseErr) (n : Nat) (hn : e.nr = some n) :
    ∃ rest, e.str repr found state = "Line ".toList ++ (natStr n ++ (e.col.text ++ ' ' :: rest)) := by
  unfold ParseErr.str parseErrorStr
  rw [hn]
  cases e.line with
  | none => cases e.col <;> exact ⟨_, by simp [Col.text]; rfl⟩
  | some l =>
    cases l with
    | nil => cases state <;> cases e.col <;> exact ⟨_, by simp [Col.text]; rfl⟩
    | cons => cases state <;> cases e.col <;> exact ⟨_, by simp [Col.text]; rfl⟩

theorem col_inj {c d : Col} {x y : Str} (h : c.text ++ ' ' :: x = d.text ++ ' ' :: y) : c = d := by
  have sp : ∀ z : Str, ∀ c ∈ (' ' :: z).head?, isDigit c = false := fun z c hc => by cases hc; rfl
  have da : ∀ z : Str, ∀ c ∈ ('-' :: z).head?, isDigit c = false := fun z c hc => by cases hc; rfl
  cases c with
  | none =>
    cases d with
    | none => rfl
    | «at» b => simp [Col.text] at h
    | range a b => simp [Col.text] at h
  | «at» a =>
    cases d with
    | none => simp [Col.text] at h
    | «at» b =>
      have h : ':' :: (natStr a ++ ' ' :: x) = ':' :: (natStr b ++ ' ' :: y) := h
      injection h with _ h
      rw [(split_number (sp _) (sp _) h).1]
    | range b b' =>
      have h : ':' :: (natStr a ++ ' ' :: x) = ':' :: ((natStr b ++ '-' :: natStr b') ++ ' ' :: y) := h
      injection h with _ h
      rw [List.append_assoc] at h
      have := (split_number (sp _) (da _) h).2
      cases this
  | range a a' =>
    cases d with
    | none => simp [Col.text] at h
    | «at» b =>
      have h : ':' :: ((natStr a ++ '-' :: natStr a') ++ ' ' :: x) = ':' :: (natStr b ++ ' ' :: y) := h
      injection h with _ h
      rw [List.append_assoc] at h
      have := (split_number (da _) (sp _) h).2
      cases this
    | range b b' =>
      have h : ':' :: ((natStr a ++ '-' :: natStr a') ++ ' ' :: x) = ':' :: ((natStr b ++ '-' :: natStr b') ++ ' ' :: y) := h
      injection h with _ h
      rw [List.append_assoc, List.append_assoc] at h
      obtain ⟨rfl, h2⟩ := split_number (da _) (da _) h
      have h : '-' :: (natStr a' ++ ' ' :: x) = '-' :: (natStr b' ++ ' ' :: y) := h2
      injection h with _ h
      rw [(split_number (sp _) (sp _) h).1]

/-- C79: from the text of an error with a line number one can read the number and the columns. -/
theorem C79_readable (r r' : Str → Str) (f f' st st' : Str) (e e' : ParseErr) (n n' : Nat) (hn : e.nr = some n)
    (hn' : e'.nr = some n') (h : e.str r f st = e'.str r' f' st') : n = n' ∧ e.col = e'.col := by
  obtain ⟨x, hx⟩ := str_start r f st e n hn
  obtain ⟨y, hy⟩ := str_start r' f' st' e' n' hn'
  rw [hx, hy] at h
  have hd : ∀ (c : Col) (z : Str), ∀ a ∈ (c.text ++ ' ' :: z).head?, isDigit a = false := by
    intro c z a ha
    cases c <;> cases ha <;> rfl
  obtain ⟨h1, h2⟩ := split_number (hd _ _) (hd _ _) (List.append_cancel_left h)
  exact ⟨h1, col_inj h2⟩

/-- The text of an error of the example, and of one without a number. -/
example :
    ParseErr.str (fun t => t) [] "ContentLineParser(...)".toList ⟨.trailingContent, some 3, .range 10 11, some "NAME;A=\"b\"c:x".toList⟩ =
      "Line 3:10-11 contains param with content trailing after closing quote: NAME;A=\"b\"c:x (ContentLineParser(...))".toList ∧
    ParseErr.str (fun t => t) [] [] { msg := .expectedEnd "A".toList "B".toList } = "Line Expected END:A, got END:B".toList := by
  decide +kernel

end Ics
