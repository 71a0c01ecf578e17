import Verif.Model.Located

/-
Forgetting line numbers and messages of `Model/Located.lean` gives `Model/Parser.lean`.
-/
namespace Ics

/-- The exception without its details. -/
def LErr.erase : LErr → PyErr
  | .parse _ => .parseError
  | .other e => e

/-- The result without the details of its exception. -/
def plain {α : Type} : Except LErr α → Except PyErr α
  | .ok a => .ok a
  | .error e => .error e.erase

theorem plain_ok {α : Type} (a : α) : plain (.ok a) = .ok a := rfl

theorem plain_error {α : Type} (e : LErr) : plain (.error e : Except LErr α) = .error e.erase := rfl

theorem plain_ite {α : Type} {p : Prop} [Decidable p] (a b : Except LErr α) :
    plain (if p then a else b) = if p then plain a else plain b := by split <;> rfl

theorem plain_map {α β : Type} (f : α → β) (r : Except LErr α) : plain (r.map f) = (plain r).map f := by
  cases r <;> rfl

theorem plain_unescape (w s : Str) : plain (unescapeParamL w s) = unescapeParam s := by
  fun_induction unescapeParam s with
  | case1 => rfl
  | case2 s ih => rw [unescapeParamL, if_pos rfl, plain_map, ih]
  | case3 s h ih => rw [unescapeParamL, if_neg h, if_pos rfl, plain_map, ih]
  | case4 s h1 h2 ih => rw [unescapeParamL, if_neg h1, if_neg h2, if_pos rfl, plain_map, ih]
  | case5 c s h1 h2 h3 =>
    rw [unescapeParamL, if_neg h1, if_neg h2, if_neg h3]
    split <;> rfl
  | case6 => rfl
  | case7 c s h1 h2 ih =>
    rw [unescapeParamL.eq_4 _ _ _ h1 h2, plain_map, ih]

theorem plain_getChar (s : Src) (i : Nat) : plain (s.getChar i) = getChar s.line i := by
  unfold Src.getChar getChar
  cases s.line[i]? <;> rfl

theorem plain_nextDelim (s : Src) (st : PSt) : plain (s.nextDelim st) = nextDelim st := by
  unfold Src.nextDelim nextDelim
  cases st.delims <;> rfl

theorem plain_skipDelims (s : Src) (d : Nat) (ds : List Nat) (p : Nat) : plain (s.skipDelims d ds p) = skipDelims d ds p := by
  induction ds generalizing d with
  | nil => rw [Src.skipDelims, skipDelims]; split <;> rfl
  | cons x ds ih =>
    rw [Src.skipDelims, skipDelims]
    split
    · exact ih x
    · rfl

theorem plain_parseQuoted (s : Src) (st : PSt) : plain (s.parseQuoted st) = parseQuoted s.line st := by
  unfold Src.parseQuoted parseQuoted
  dsimp only
  cases indexFrom s.line '"' (st.pvs + 1) with
  | none => rfl
  | some stop =>
    dsimp only
    rw [← plain_unescape (slice s.line (st.pvs + 1) stop)]
    cases unescapeParamL (slice s.line (st.pvs + 1) stop) (slice s.line (st.pvs + 1) stop) with
    | error e => rfl
    | ok v =>
      simp only [plain_ok, plain_ite]
      rw [← plain_skipDelims s]
      cases s.skipDelims st.delim st.delims (stop + 1) with
      | error e => rfl
      | ok x =>
        simp only [plain_ok, plain_ite]
        split
        · rfl
        · rw [← plain_getChar]
          cases s.getChar (stop + 1) with
          | error e => rfl
          | ok c =>
            simp only [plain_ok, plain_ite]
            split <;> rfl

theorem plain_parseRaw (s : Src) (st : PSt) : plain (s.parseRaw st) = parseRaw s.line st := by
  unfold Src.parseRaw parseRaw
  cases findBetween s.line ',' st.pvs st.delim with
  | none =>
    dsimp only
    rw [← plain_unescape (slice s.line st.pvs st.delim)]
    cases unescapeParamL (slice s.line st.pvs st.delim) (slice s.line st.pvs st.delim) <;> rfl
  | some c =>
    dsimp only
    rw [← plain_unescape (slice s.line st.pvs c)]
    cases unescapeParamL (slice s.line st.pvs c) (slice s.line st.pvs c) <;> rfl

theorem plain_parseVals (s : Src) (n : Nat) (st : PSt) : plain (s.parseVals n st) = parseVals s.line n st := by
  induction n generalizing st with
  | zero => rfl
  | succ n ih =>
    rw [Src.parseVals, parseVals]
    split
    · rfl
    · rw [← plain_getChar]
      cases s.getChar st.pvs with
      | error e => rfl
      | ok c =>
        simp only [plain_ok, plain_ite]
        rw [← plain_parseQuoted, ← plain_parseRaw]
        generalize s.parseQuoted st = x
        generalize s.parseRaw st = y
        have key : ∀ r : Except LErr (Bool × PSt),
            plain (match r with | .error e => .error e | .ok (true, st') => s.parseVals n st' | .ok (false, st') => .ok st') =
            (match plain r with | .error e => .error e | .ok (true, st') => parseVals s.line n st' | .ok (false, st') => .ok st') := by
          rintro (e | ⟨b, st'⟩)
          · rfl
          · cases b
            · rfl
            · exact ih st'
        by_cases hc : c = '"'
        · rw [if_pos hc, if_pos hc]; exact key x
        · rw [if_neg hc, if_neg hc]; exact key y

theorem plain_parseParam (s : Src) (d : Nat) (ds : List Nat) : plain (s.parseParam d ds) = parseParam s.line d ds := by
  unfold Src.parseParam parseParam
  cases indexFrom s.line '=' (d + 1) with
  | none => rfl
  | some eq =>
    dsimp only
    rw [← plain_nextDelim s]
    cases s.nextDelim _ with
    | error e => rfl
    | ok st =>
      simp only [plain_ok, plain_ite]
      rw [← plain_parseVals]
      cases s.parseVals _ st <;> rfl

theorem plain_parseLoop (s : Src) (name : Str) (n : Nat) (ps : Params) (d : Nat) (ds : List Nat) :
    plain (s.parseLoop name n ps d ds) = parseLoop s.line name n ps d ds := by
  induction n generalizing ps d ds with
  | zero => rfl
  | succ n ih =>
    rw [Src.parseLoop, parseLoop, ← plain_getChar]
    cases s.getChar d with
    | error e => rfl
    | ok c =>
      simp only [plain_ok, plain_ite]
      split
      · rfl
      · split
        · rw [← plain_parseParam]
          cases s.parseParam d ds with
          | error e => rfl
          | ok x => exact ih _ _ _
        · rfl

theorem plain_parse (s : Src) : (plain s.parse).map NrLine.line = parseLine s.line := by
  unfold Src.parse parseLine
  cases delimsFrom 0 s.line with
  | nil => rfl
  | cons d ds =>
    dsimp only
    rw [plain_map, plain_parseLoop]
    cases parseLoop s.line (s.line.take d) (s.line.length + 1) [] d ds <;> rfl

/-- A parsed line has the number that was given. -/
theorem parse_nr {s : Src} {l : NrLine} (h : s.parse = .ok l) : l.nr = s.nr ∧ parseLine s.line = .ok l.line := by
  constructor
  · unfold Src.parse at h
    cases hd : delimsFrom 0 s.line with
    | nil => rw [hd] at h; cases h
    | cons d ds =>
      rw [hd] at h
      dsimp only at h
      cases hp : s.parseLoop (s.line.take d) (s.line.length + 1) [] d ds with
      | error e => rw [hp] at h; cases h
      | ok x => rw [hp] at h; cases h; rfl
  · rw [← plain_parse, h]; rfl

/-! ### Generators -/

/-- The generator without line numbers and details. -/
def LGen.erase {α β : Type} (f : α → β) (g : LGen α) : Gen β := ⟨g.items.map f, g.err.map LErr.erase⟩

theorem erase_raise {α β : Type} (f : α → β) (e : LErr) : (LGen.raise e).erase f = Gen.raise e.erase := rfl

theorem erase_yield {α β : Type} (f : α → β) (a : α) (g : LGen α) :
    (LGen.yield a g).erase f = Gen.yield (f a) (g.erase f) := rfl

theorem findIdx_any {p : Char → Bool} (l : Str) : (l.findIdx? p).isSome = l.any p := List.findIdx?_isSome

theorem erase_unfold (ls : List Str) (cur : Option (Nat × Str)) (nr : Nat) :
    (unfoldNr cur nr ls).erase Prod.snd = unfoldFrom (cur.map Prod.snd) ls := by
  induction ls generalizing cur nr with
  | nil => cases cur <;> rfl
  | cons l ls ih =>
    rw [unfoldNr.eq_def, unfoldFrom.eq_def]
    dsimp only
    split
    · exact ih _ _
    · rw [← findIdx_any]
      cases List.findIdx? isNl (rstripNl l) with
      | some i => rfl
      | none =>
        cases cur with
        | none =>
          dsimp only [Option.isSome, Option.map]
          rw [if_neg (show ¬ (false = true) by decide)]
          split
          · rfl
          · exact ih _ _
        | some c =>
          dsimp only [Option.isSome, Option.map]
          rw [if_neg (show ¬ (false = true) by decide)]
          split
          · exact ih _ _
          · rw [erase_yield, ih]; rfl

theorem erase_parseEach (err : Option LErr) (ls : List (Nat × Str)) :
    (parseEachNr err ls).erase NrLine.line = parseEach (err.map LErr.erase) (ls.map Prod.snd) := by
  induction ls with
  | nil => rfl
  | cons l ls ih =>
    rw [parseEachNr, List.map_cons, parseEach]
    have h := plain_parse ⟨l.2, some l.1⟩
    dsimp only at h
    rw [← h]
    cases Src.parse ⟨l.2, some l.1⟩ with
    | error e => rfl
    | ok x =>
      dsimp only [plain, Except.map]
      rw [erase_yield, ih]

mutual
/-- The item without line numbers. -/
def NrItem.erase : NrItem → Item
  | .line l => .line l.line
  | .cont n is => .cont n (NrItem.erases is)
/-- The items without line numbers. -/
def NrItem.erases : List NrItem → List Item
  | [] => []
  | i :: is => i.erase :: NrItem.erases is
end

theorem erases_eq (is : List NrItem) : NrItem.erases is = is.map NrItem.erase := by
  induction is with
  | nil => rfl
  | cons i is ih => rw [NrItem.erases, ih, List.map_cons]

theorem plain_toContainer (err : Option LErr) (n : Nat) (name : Str) (acc : List NrItem) (ls : List NrLine) :
    (plain (toContainerNr err n name acc ls)).map (fun r => (r.1.erase, r.2.map NrLine.line)) =
      toContainer (err.map LErr.erase) n name (acc.map NrItem.erase) (ls.map NrLine.line) := by
  induction n generalizing name acc ls with
  | zero => rfl
  | succ n ih =>
    cases ls with
    | nil =>
      rw [toContainerNr, List.map_nil, toContainer]
      cases err <;> rfl
    | cons l ls =>
      rw [toContainerNr, List.map_cons, toContainer]
      split
      · have h := ih l.line.value [] ls
        rw [List.map_nil] at h
        rw [← h]
        cases toContainerNr err n l.line.value [] ls with
        | error e => rfl
        | ok r =>
          have h2 := ih name (acc ++ [r.1]) r.2
          rw [List.map_append] at h2
          exact h2
      · split
        · split
          · rfl
          · unfold mkNrContainer mkContainer
            by_cases hn : upper name = []
            · rw [if_pos hn, if_pos hn]; rfl
            · rw [if_neg hn, if_neg hn]
              dsimp only [plain, Except.map]
              rw [NrItem.erase, erases_eq]
        · rw [ih, List.map_append]
          rfl

theorem erase_toContainers (err : Option LErr) (n : Nat) (ls : List NrLine) :
    (toContainersNr err n ls).erase NrItem.erase = toContainersF (err.map LErr.erase) n (ls.map NrLine.line) := by
  induction n generalizing ls with
  | zero => cases ls <;> rfl
  | succ n ih =>
    cases ls with
    | nil => rfl
    | cons l ls =>
      rw [toContainersNr, List.map_cons, toContainersF]
      split
      · have h := plain_toContainer err (ls.length + 1) l.line.value [] ls
        rw [List.map_nil] at h
        rw [List.length_map, ← h]
        cases toContainerNr err (ls.length + 1) l.line.value [] ls with
        | error e => rfl
        | ok r =>
          dsimp only [plain, Except.map]
          rw [erase_yield, ih]
      · rw [erase_yield, ih]
        rfl

theorem erase_nrLines (ls : List Str) : (nrLines ls).erase NrLine.line = linesToContentlines (unfoldLines ls) := by
  unfold nrLines linesToContentlines unfoldLines
  rw [erase_parseEach]
  have h := erase_unfold ls none 0
  rw [Option.map_none] at h
  rw [← h]
  rfl

/-- Forgetting line numbers and the details of errors gives the model of the parser. -/
theorem erase_nrItems (ls : List Str) : (nrItems ls).erase NrItem.erase = linesToContainers ls := by
  unfold nrItems linesToContainers toContainers
  rw [erase_toContainers, ← erase_nrLines]
  simp only [LGen.erase, List.length_map]

end Ics
