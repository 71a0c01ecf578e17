import Verif.Spec.Located
import Verif.Proofs.Located
import Verif.Proofs.Parsed

/-
Line numbers: what `unfold_lines` yields, and the lines of the containers.
-/
namespace Ics

theorem startsFold_begins {l : Str} (h : l ≠ []) : startsFold l = !begins l := by
  cases l with
  | nil => exact absurd rfl h
  | cons c l =>
    simp only [startsFold, begins, bne]
    cases c == ' ' <;> cases c == '\t' <;> rfl

theorem begins_nil : begins [] = false := rfl

theorem noBreak_strip {l : Str} (h : NoBreak l) : rstripNl l = l ∧ l.findIdx? isNl = none := by
  have hn : ∀ c ∈ l, isNl c = false := by
    intro c hc
    have h1 : c ≠ '\r' := fun e => h.1 (e ▸ hc)
    have h2 : c ≠ '\n' := fun e => h.2 (e ▸ hc)
    simp only [isNl, beq_eq_false_iff_ne.2 h1, beq_eq_false_iff_ne.2 h2, Bool.or_self]
  exact ⟨rstripNl_id hn, List.findIdx?_eq_none_iff.2 hn⟩

/-- One step of `unfoldNr` on a line without breaks. -/
theorem unfoldNr_cons (cur : Option (Nat × Str)) (nr : Nat) (l : Str) (ls : List Str) (h : NoBreak l) :
    unfoldNr cur nr (l :: ls) =
      if begins l then
        (match cur with
        | none => unfoldNr (some (nr, l)) (nr + 1) ls
        | some c => .yield c (unfoldNr (some (nr, l)) (nr + 1) ls))
      else
        match cur with
        | none => if l = [] then unfoldNr none (nr + 1) ls else .raise (.parse { msg := .strayContinuation nr l })
        | some c => unfoldNr (some (c.1, c.2 ++ l.drop 1)) (nr + 1) ls := by
  obtain ⟨h1, h2⟩ := noBreak_strip h
  rw [unfoldNr.eq_def]
  dsimp only
  rw [h1, h2]
  cases l with
  | nil =>
    rw [if_pos rfl, if_neg (show ¬ begins [] = true by decide)]
    cases cur with
    | none => rfl
    | some c => simp
  | cons c l =>
    rw [if_neg (by simp)]
    dsimp only
    rw [startsFold_begins (by simp)]
    cases begins (c :: l) <;> cases cur <;> simp

/-- The content lines, with the number of the line on which they begin, from line number `k` on. -/
def contentFrom (k : Nat) : List Str → List (Nat × Str)
  | [] => []
  | l :: ls =>
    if begins l then (k, l ++ (ls.takeWhile fun l => !begins l).flatMap (List.drop 1)) :: contentFrom (k + 1) ls
    else contentFrom (k + 1) ls

theorem unfoldNr_some (ls : List Str) (h : ∀ l ∈ ls, NoBreak l) (n : Nat) (c : Str) (k : Nat) :
    unfoldNr (some (n, c)) k ls =
      ⟨(n, c ++ (ls.takeWhile fun l => !begins l).flatMap (List.drop 1)) :: contentFrom k ls, none⟩ := by
  induction ls generalizing n c k with
  | nil => simp [unfoldNr, contentFrom]
  | cons l ls ih =>
    have ih := ih fun x hx => h x (List.mem_cons_of_mem _ hx)
    rw [unfoldNr_cons _ _ _ _ (h l List.mem_cons_self)]
    cases hb : begins l with
    | true =>
      rw [if_pos rfl]
      dsimp only
      rw [ih]
      simp [LGen.yield, contentFrom, hb]
    | false =>
      rw [if_neg (by decide)]
      dsimp only
      rw [ih]
      simp [contentFrom, hb]

/-- The first line that is not empty is a continuation. -/
def Stray (k : Nat) : List Str → Option (Nat × Str)
  | [] => none
  | l :: ls => if begins l then none else if l = [] then Stray (k + 1) ls else some (k, l)

theorem unfoldNr_none (ls : List Str) (h : ∀ l ∈ ls, NoBreak l) (k : Nat) :
    unfoldNr none k ls = match Stray k ls with
      | none => ⟨contentFrom k ls, none⟩
      | some (n, l) => ⟨[], some (.parse { msg := .strayContinuation n l })⟩ := by
  induction ls generalizing k with
  | nil => rfl
  | cons l ls ih =>
    have hr : ∀ x ∈ ls, NoBreak x := fun x hx => h x (List.mem_cons_of_mem _ hx)
    rw [unfoldNr_cons _ _ _ _ (h l List.mem_cons_self), Stray, contentFrom]
    cases hb : begins l with
    | true =>
      simp only [if_true]
      rw [unfoldNr_some _ hr]
    | false =>
      simp only [Bool.false_eq_true, if_false]
      by_cases hl : l = []
      · rw [if_pos hl, if_pos hl, ih hr]
      · rw [if_neg hl, if_neg hl]
        rfl

theorem contentFrom_fst (ls : List Str) (k : Nat) : ∀ p ∈ contentFrom k ls, k ≤ p.1 := by
  induction ls generalizing k with
  | nil => nofun
  | cons l ls ih =>
    intro p hp
    rw [contentFrom] at hp
    split at hp
    · rcases List.mem_cons.1 hp with rfl | hp
      · exact Nat.le_refl _
      · have := ih _ p hp; omega
    · have := ih _ p hp; omega

theorem contentFrom_sorted (ls : List Str) (k : Nat) : (contentFrom k ls).Pairwise fun p q => p.1 < q.1 := by
  induction ls generalizing k with
  | nil => exact .nil
  | cons l ls ih =>
    rw [contentFrom]
    split
    · exact .cons (fun q hq => by have := contentFrom_fst ls (k + 1) q hq; omega) (ih _)
    · exact ih _

theorem contentFrom_mem (ls : List Str) (k n : Nat) (t : Str) :
    (k + n, t) ∈ contentFrom k ls ↔ BeginsAt ls n ∧ t = contentAt ls n := by
  induction ls generalizing k n with
  | nil => exact ⟨nofun, fun ⟨⟨l, h, _⟩, _⟩ => by simp at h⟩
  | cons l ls ih =>
    cases n with
    | zero =>
      have hno : (k + 0, t) ∉ contentFrom (k + 1) ls := fun h => by have := contentFrom_fst ls _ _ h; simp at this
      rw [contentFrom]
      constructor
      · intro h
        split at h
        · rename_i hb
          rcases List.mem_cons.1 h with h | h
          · exact ⟨⟨l, rfl, hb⟩, (Prod.ext_iff.1 h).2⟩
          · exact absurd h hno
        · exact absurd h hno
      · rintro ⟨⟨l', h1, h2⟩, rfl⟩
        cases h1
        rw [if_pos h2]
        exact List.mem_cons_self
    | succ n =>
      have e : k + (n + 1) = (k + 1) + n := by omega
      have e1 : BeginsAt (l :: ls) (n + 1) ↔ BeginsAt ls n := Iff.rfl
      have e2 : contentAt (l :: ls) (n + 1) = contentAt ls n := rfl
      rw [e1, e2, ← ih (k + 1) n, contentFrom, e]
      split
      · rw [List.mem_cons]
        constructor
        · rintro (h | h)
          · have := (Prod.ext_iff.1 h).1
            simp at this
            omega
          · exact h
        · exact Or.inr
      · exact Iff.rfl

theorem stray_some {ls : List Str} {k n : Nat} {l : Str} (h : Stray k ls = some (n, l)) :
    ∃ i, n = k + i ∧ ls[i]? = some l ∧ startsFold l = true ∧ ∀ j < i, ls[j]? = some [] := by
  induction ls generalizing k with
  | nil => cases h
  | cons x ls ih =>
    rw [Stray] at h
    split at h
    · cases h
    · rename_i hb
      split at h
      · rename_i hx
        obtain ⟨i, h1, h2, h3, h4⟩ := ih h
        refine ⟨i + 1, by omega, h2, h3, fun j hj => ?_⟩
        cases j with
        | zero => rw [hx]; rfl
        | succ j => exact h4 j (by omega)
      · rename_i hx
        cases h
        refine ⟨0, rfl, rfl, ?_, nofun⟩
        rw [startsFold_begins hx]
        simpa using hb

theorem stray_none {ls : List Str} {k : Nat} (h : Stray k ls = none) :
    ∀ i l, ls[i]? = some l → startsFold l = true → ∃ j < i, BeginsAt ls j := by
  induction ls generalizing k with
  | nil => intro i l h; simp at h
  | cons x ls ih =>
    intro i l hi hl
    rw [Stray] at h
    split at h
    · rename_i hb
      cases i with
      | zero =>
        cases hi
        rw [startsFold_begins (by rintro rfl; cases hl), hb] at hl
        cases hl
      | succ i => exact ⟨0, by omega, x, rfl, hb⟩
    · split at h
      · rename_i hx
        cases i with
        | zero =>
          cases hi
          rw [hx] at hl
          cases hl
        | succ i =>
          obtain ⟨j, hj, hb⟩ := ih h i l hi hl
          exact ⟨j + 1, by omega, hb⟩
      · cases h

/-! ### Parsing each line -/

theorem parseEachNr_nr {err : Option LErr} {ls : List (Nat × Str)} :
    ∃ ps, ps <+: ls ∧ List.Forall₂ (fun (p : Nat × Str) (l : NrLine) => l.nr = some p.1 ∧ parseLine p.2 = .ok l.line) ps
      (parseEachNr err ls).items := by
  induction ls with
  | nil => exact ⟨[], List.prefix_rfl, .nil⟩
  | cons p ls ih =>
    rw [parseEachNr]
    cases h : Src.parse ⟨p.2, some p.1⟩ with
    | error e => exact ⟨[], List.nil_prefix, .nil⟩
    | ok l =>
      obtain ⟨ps, h1, h2⟩ := ih
      exact ⟨p :: ps, List.prefix_cons_inj p |>.2 h1, .cons (parse_nr h) h2⟩

/-! ### Nesting keeps the lines in order -/

theorem linesOf_append (a b : List NrItem) : NrItem.linesOf (a ++ b) = NrItem.linesOf a ++ NrItem.linesOf b := by
  induction a with
  | nil => rfl
  | cons i a ih => rw [List.cons_append, NrItem.linesOf, NrItem.linesOf, ih, List.append_assoc]

theorem linesOf_single (i : NrItem) : NrItem.linesOf [i] = i.lines := by
  rw [NrItem.linesOf, NrItem.linesOf, List.append_nil]

theorem toContainerNr_lines {err : Option LErr} {n : Nat} {name : Str} {acc : List NrItem} {ls : List NrLine}
    {i : NrItem} {rest : List NrLine} (h : toContainerNr err n name acc ls = .ok (i, rest)) :
    ∃ new used, ls = used ++ rest ∧ i.lines = NrItem.linesOf acc ++ new ∧ List.Sublist new used := by
  induction n generalizing name acc ls i rest with
  | zero => cases h
  | succ n ih =>
    cases ls with
    | nil => cases h
    | cons l ls =>
      rw [toContainerNr] at h
      split at h
      · cases hr : toContainerNr err n l.line.value [] ls with
        | error e => rw [hr] at h; cases h
        | ok r =>
          rw [hr] at h
          obtain ⟨new1, used1, h1, h2, h3⟩ := ih hr
          obtain ⟨new2, used2, h4, h5, h6⟩ := ih h
          refine ⟨new1 ++ new2, l :: (used1 ++ used2), ?_, ?_, (h3.append h6).cons _⟩
          · rw [h1, h4]; simp
          · rw [h5, linesOf_append, linesOf_single, h2]
            simp [NrItem.linesOf]
      · split at h
        · split at h
          · cases h
          · unfold mkNrContainer at h
            by_cases hn : upper name = []
            · rw [if_pos hn] at h; cases h
            · rw [if_neg hn] at h
              cases h
              exact ⟨[], [l], rfl, by rw [NrItem.lines, List.append_nil], List.nil_sublist _⟩
        · obtain ⟨new, used, h1, h2, h3⟩ := ih h
          refine ⟨l :: new, l :: used, by rw [h1]; rfl, ?_, h3.cons_cons l⟩
          rw [h2, linesOf_append, linesOf_single, NrItem.lines]
          simp

theorem toContainersNr_lines (err : Option LErr) (n : Nat) (ls : List NrLine) :
    List.Sublist (NrItem.linesOf (toContainersNr err n ls).items) ls := by
  induction n generalizing ls with
  | zero => cases ls <;> exact List.nil_sublist _
  | succ n ih =>
    cases ls with
    | nil => exact List.nil_sublist _
    | cons l ls =>
      rw [toContainersNr]
      split
      · cases hr : toContainerNr err (ls.length + 1) l.line.value [] ls with
        | error e => exact List.nil_sublist _
        | ok r =>
          obtain ⟨new, used, h1, h2, h3⟩ := toContainerNr_lines hr
          dsimp only [LGen.yield]
          rw [NrItem.linesOf, h2]
          refine List.Sublist.cons _ ?_
          rw [h1]
          exact (show List.Sublist (NrItem.linesOf [] ++ new) used by simpa [NrItem.linesOf] using h3).append (ih _)
      · dsimp only [LGen.yield]
        rw [NrItem.linesOf, NrItem.lines]
        exact (ih ls).cons_cons l

end Ics
