import Verif.Model.Iter
import Verif.Spec.Iter
import Verif.Proofs.Tree

/-
Lemmas on `splitlines` (C69).
-/
namespace Ics

theorem isLineEnd_iff (c : Char) : isLineEnd c = true ↔ c = '\r' ∨ c = '\n' ∨ OtherLineEnd c := by
  unfold isLineEnd OtherLineEnd
  simp only [Bool.or_eq_true, decide_eq_true_iff, List.mem_cons, List.not_mem_nil, or_false]
  tauto

theorem splitKeep_cons (cur : Str) {c : Char} {s : Str} (h : c = '\r' → ∀ t, s ≠ '\n' :: t) :
    splitKeep cur (c :: s) = if isLineEnd c then (c :: cur).reverse :: splitKeep [] s else splitKeep (c :: cur) s := by
  rw [splitKeep]
  intro t hc hs
  exact h hc t hs

theorem splitKeep_crlf (cur s : Str) : splitKeep cur ('\r' :: '\n' :: s) = (cur.reverse ++ ['\r', '\n']) :: splitKeep [] s := by
  rw [splitKeep]
  simp

/-- Induction along `splitKeep`. -/
theorem crlf_induction {P : Str → Prop} (h0 : P []) (h1 : ∀ s, P s → P ('\r' :: '\n' :: s))
    (h2 : ∀ c s, (c = '\r' → ∀ t, s ≠ '\n' :: t) → P s → P (c :: s)) : ∀ s, P s := by
  intro s
  induction hn : s.length using Nat.strongRecOn generalizing s with
  | _ n ih =>
    match s with
    | [] => exact h0
    | [c] => exact h2 c [] (fun _ _ => nofun) h0
    | c :: d :: s =>
      by_cases hc : c = '\r' ∧ d = '\n'
      · obtain ⟨rfl, rfl⟩ := hc
        exact h1 s (ih s.length (by simp at hn; omega) s rfl)
      · refine h2 c (d :: s) (fun e t et => hc ⟨e, ?_⟩) (ih (d :: s).length (by simp at hn ⊢; omega) _ rfl)
        cases et
        rfl

theorem splitKeep_flatten (s : Str) : ∀ cur, (splitKeep cur s).flatten = cur.reverse ++ s := by
  induction s using crlf_induction with
  | h0 =>
    intro cur
    rw [splitKeep]
    split
    · rename_i e
      rw [e]
      rfl
    · simp
  | h1 s ih =>
    intro cur
    rw [splitKeep_crlf, List.flatten_cons, ih]
    simp
  | h2 c s hc ih =>
    intro cur
    rw [splitKeep_cons cur hc]
    split
    · rw [List.flatten_cons, ih]
      simp
    · rw [ih]
      simp

theorem splitKeep_lines (s : Str) : ∀ cur, OneLine cur → ∃ ls last, splitKeep cur s = ls ++ last ∧
    (∀ l ∈ ls, ∃ t e, l = t ++ e ∧ OneLine t ∧ LineEnd e) ∧ (last = [] ∨ ∃ t, last = [t] ∧ t ≠ [] ∧ OneLine t) := by
  have hrev : ∀ cur : Str, OneLine cur → OneLine cur.reverse := fun cur h c hc => h c (List.mem_reverse.1 hc)
  induction s using crlf_induction with
  | h0 =>
    intro cur hcur
    rw [splitKeep]
    split
    · exact ⟨[], [], rfl, nofun, .inl rfl⟩
    · rename_i hne
      exact ⟨[], [cur.reverse], rfl, nofun, .inr ⟨_, rfl, by simpa using hne, hrev _ hcur⟩⟩
  | h1 s ih =>
    intro cur hcur
    obtain ⟨ls, last, h1, h2, h3⟩ := ih [] nofun
    rw [splitKeep_crlf, h1]
    refine ⟨_ :: ls, last, rfl, List.forall_mem_cons.2 ⟨⟨cur.reverse, _, rfl, hrev _ hcur, .inl rfl⟩, h2⟩, h3⟩
  | h2 c s hc ih =>
    intro cur hcur
    rw [splitKeep_cons cur hc]
    split
    · rename_i he
      obtain ⟨ls, last, h1, h2, h3⟩ := ih [] nofun
      rw [h1]
      refine ⟨_ :: ls, last, rfl, List.forall_mem_cons.2 ⟨⟨cur.reverse, [c], List.reverse_cons, hrev _ hcur,
        .inr ⟨c, rfl, (isLineEnd_iff c).1 he⟩⟩, h2⟩, h3⟩
    · rename_i he
      refine ih (c :: cur) fun d hd => ?_
      rcases List.mem_cons.1 hd with rfl | hd
      · rw [isLineEnd_iff] at he
        exact ⟨fun e => he (.inl e), fun e => he (.inr (.inl e)), fun e => he (.inr (.inr e))⟩
      · exact hcur d hd

theorem splitKeep_append_lf (a : Str) : ∀ cur b, splitKeep cur (a ++ '\n' :: b) = splitKeep cur (a ++ ['\n']) ++ splitKeep [] b := by
  induction a using crlf_induction with
  | h0 =>
    intro cur b
    rw [List.nil_append, List.nil_append, splitKeep_cons cur (fun e => absurd e (by decide)),
      splitKeep_cons cur (fun e => absurd e (by decide)), if_pos (by decide), if_pos (by decide)]
    rfl
  | h1 a ih =>
    intro cur b
    rw [List.cons_append, List.cons_append, splitKeep_crlf, ih, List.cons_append, List.cons_append, splitKeep_crlf]
    rfl
  | h2 c a hc ih =>
    intro cur b
    by_cases ha : a = [] ∧ c = '\r'
    · obtain ⟨rfl, rfl⟩ := ha
      show splitKeep cur ('\r' :: '\n' :: b) = splitKeep cur ('\r' :: '\n' :: []) ++ _
      rw [splitKeep_crlf, splitKeep_crlf]
      rfl
    · have hc' : ∀ x, c = '\r' → ∀ t, a ++ '\n' :: x ≠ '\n' :: t := by
        intro x e t et
        cases a with
        | nil => exact ha ⟨rfl, e⟩
        | cons d a =>
          cases et
          exact hc e _ rfl
      rw [List.cons_append, List.cons_append, splitKeep_cons cur (hc' b), splitKeep_cons cur (hc' [])]
      split
      · rw [ih, List.cons_append]
      · rw [ih]

/-- Without other line ends the lines are those that the parser finds, with their line ends. -/
theorem splitKeep_same (s : Str) : ∀ cur, (∀ c ∈ s, ¬OtherLineEnd c) → (∀ c ∈ cur, isNl c = false) →
    ((splitKeep cur s).map rstripNl).filter (!·.isEmpty) = ((splitLines cur s).map rstripNl).filter (!·.isEmpty) := by
  have hrev : ∀ cur : Str, (∀ c ∈ cur, isNl c = false) → ∀ c ∈ cur.reverse, isNl c = false :=
    fun cur h c hc => h c (List.mem_reverse.1 hc)
  induction s using crlf_induction with
  | h0 =>
    intro cur _ hcur
    rw [splitKeep, splitLines]
    split
    · rename_i e
      rw [e]
      rfl
    · rfl
  | h1 s ih =>
    intro cur hs hcur
    rw [splitKeep_crlf, splitLines, List.map_cons, List.map_cons, List.filter_cons, List.filter_cons,
      ih [] (fun c hc => hs c (by simp [hc])) nofun, rstripNl_append_nl (e := ['\r', '\n']) (hrev _ hcur) (fun c hc => by
        simp only [List.mem_cons, List.not_mem_nil, or_false] at hc
        rcases hc with rfl | rfl <;> rfl), rstripNl_id (hrev _ hcur)]
  | h2 c s hc ih =>
    intro cur hs hcur
    have ih' := ih [] (fun c hc => hs c (List.mem_cons_of_mem _ hc)) nofun
    rw [splitKeep_cons cur hc]
    by_cases h1 : isNl c = true
    · have he : isLineEnd c = true := (isLineEnd_iff c).2 (by
        unfold isNl at h1
        simp only [Bool.or_eq_true, beq_iff_eq] at h1
        exact h1.elim .inl fun h => .inr (.inl h))
      have e : splitLines cur (c :: s) = cur.reverse :: splitLines [] s := by
        unfold isNl at h1
        simp only [Bool.or_eq_true, beq_iff_eq] at h1
        rcases h1 with rfl | rfl
        · cases s with
          | nil => rfl
          | cons d s =>
            rw [splitLines]
            intro t e
            exact hc rfl t e
        · rw [splitLines]
      rw [if_pos he, e, List.map_cons, List.map_cons, List.filter_cons, List.filter_cons, ih', List.reverse_cons,
        rstripNl_append_nl (hrev _ hcur) (by simpa using h1), rstripNl_id (hrev _ hcur)]
    · have he : ¬isLineEnd c = true := by
        rw [isLineEnd_iff]
        rintro (rfl | rfl | h)
        · exact h1 rfl
        · exact h1 rfl
        · exact hs c List.mem_cons_self h
      have e : splitLines cur (c :: s) = splitLines (c :: cur) s := by
        rw [splitLines]
        · rintro t rfl rfl
          exact h1 rfl
        · rintro rfl
          exact h1 rfl
        · rintro rfl
          exact h1 rfl
      rw [if_neg he, e]
      refine ih (c :: cur) (fun d hd => hs d (List.mem_cons_of_mem _ hd)) fun d hd => ?_
      rcases List.mem_cons.1 hd with rfl | hd
      · exact Bool.not_eq_true _ ▸ h1
      · exact hcur d hd

theorem splitKeep_parse (txt : Str) (h : ∀ c ∈ txt, ¬OtherLineEnd c) :
    linesToContainers (splitKeep [] txt) = stringToContainers txt := by
  rw [stringToContainers, linesToContainers, linesToContainers, unfoldLines, unfoldLines, unfoldFrom_strip,
    splitKeep_same txt [] h nofun, ← unfoldFrom_strip]
  rfl

/-! ### Written containers -/

mutual
theorem serItem_end (w : Wrap) : ∀ (i : Item) (t : Str), serItem w i = .ok t → t = [] ∨ ∃ s, t = s ++ ['\n']
  | .line cl, t, h => by
    rw [serItem] at h
    unfold serLine at h
    split at h
    · cases h
    · rename_i lines _
      rw [if_pos rfl] at h
      cases h
      rcases List.eq_nil_or_concat lines with rfl | ⟨l, x, rfl⟩
      · exact .inl rfl
      · exact .inr ⟨l.flatMap (· ++ crlf) ++ x ++ ['\r'], by simp [crlf]⟩
  | .cont n is, t, h => by
    rw [serItem] at h
    simp only [bind, Except.bind] at h
    split at h
    · cases h
    · rename_i body _
      cases h
      exact .inr ⟨"BEGIN:".toList ++ n ++ crlf ++ body ++ "END:".toList ++ n ++ ['\r'], by simp [crlf]⟩
end

theorem serItems_end (w : Wrap) : ∀ (is : List Item) (t : Str), serItems w is = .ok t → t = [] ∨ ∃ s, t = s ++ ['\n']
  | [], t, h => by
    rw [serItems] at h
    cases h
    exact .inl rfl
  | i :: is, t, h => by
    rw [serItems] at h
    simp only [bind, Except.bind] at h
    split at h
    · cases h
    · rename_i a ha
      split at h
      · cases h
      · rename_i b hb
        cases h
        rcases serItems_end w is b hb with rfl | ⟨s, rfl⟩
        · rw [List.append_nil]
          exact serItem_end w i a ha
        · exact .inr ⟨a ++ s, by simp⟩

theorem splitKeep_oneLine (s : Str) (h : OneLine s) (hne : s ≠ []) : splitKeep [] s = [s] := by
  have key : ∀ (s cur : Str), OneLine s → cur.reverse ++ s ≠ [] → splitKeep cur s = [cur.reverse ++ s] := by
    intro s
    induction s with
    | nil =>
      intro cur _ hne
      rw [splitKeep, if_neg (by simpa using hne), List.append_nil]
    | cons c s ih =>
      intro cur hs hne
      rw [splitKeep_cons cur fun e => absurd e (hs c List.mem_cons_self).1, if_neg, ih (c :: cur)
        (fun d hd => hs d (List.mem_cons_of_mem _ hd)) (by simp)]
      · simp
      · rw [isLineEnd_iff]
        have := hs c List.mem_cons_self
        rintro (e | e | e)
        exacts [this.1 e, this.2.1 e, this.2.2 e]
  exact key s [] h (by simpa using hne)

end Ics
