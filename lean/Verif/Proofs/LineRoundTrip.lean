import Verif.Proofs.LineParser
import Verif.Proofs.Param

namespace Ics

/-! ### Errors and progress of the suffix parser -/

theorem sVals_spec (n : Nat) : ∀ (vals : List PVal) (s : Str), s.length < n →
    match sVals n vals s with
    | .error e => e = .parseError
    | .ok (_, s') => s'.length < s.length ∧ ∃ d t, s' = d :: t ∧ isDelim d = true := by
  induction n with
  | zero => intro vals s h; omega
  | succ n ih =>
    intro vals s hlen
    by_cases hany : s.any isDelim = false
    · rw [sVals_nodelim (any_isDelim_false.1 hany)]
    · cases s with
      | nil => simp at hany
      | cons c t =>
        by_cases hc : isDelim c = true
        · rw [sVals_delim hc]
        · by_cases hq : c = '"'
          · subst hq
            rcases split_char '"' t with hno | ⟨a, b, rfl, ha⟩
            · rw [sVals_unclosed hno]
            · rw [sVals_quoted ha]
              cases hu : unescapeParam a with
              | error e => exact unescapeParam_err hu
              | ok v =>
                simp only [sAfterQuote]
                by_cases hb : b.any isDelim = false
                · rw [if_pos hb]
                · rw [if_neg hb]
                  cases b with
                  | nil => simp at hb
                  | cons x b =>
                    by_cases hx : isDelim x = true
                    · simp only [hx, if_true]
                      exact ⟨by simp; omega, x, b, rfl, hx⟩
                    · simp only [hx]
                      by_cases hcm : x = ','
                      · simp only [hcm, Bool.false_eq_true, if_true, if_false]
                        have := ih (vals ++ [⟨true, v⟩]) b (by simp at hlen; omega)
                        revert this
                        cases sVals n (vals ++ [⟨true, v⟩]) b with
                        | error e => exact id
                        | ok q =>
                          rintro ⟨h1, h2⟩
                          exact ⟨by simp; omega, h2⟩
                      · simp [hcm]
          · rcases split_first (fun c => isDelim c || c == ',') (c :: t) with hno | ⟨a, d, b, hs, ha, hdp⟩
            · exact absurd (any_isDelim_false.2 fun x hx => by
                have := hno x hx; simp at this; exact this.1) hany
            · have ha' : ∀ x ∈ a, isDelim x = false ∧ x ≠ ',' := fun x hx => by simpa using ha x hx
              have hhead : a.head? ≠ some '"' := by
                cases a with
                | nil => simp
                | cons y a =>
                  simp only [List.cons_append, List.cons.injEq] at hs
                  rw [← hs.1]; simpa using hq
              rw [hs] at hlen hany ⊢
              by_cases hcm : d = ','
              · subst hcm
                have hbany : b.any isDelim = true := by
                  by_contra hb
                  apply hany
                  rw [any_isDelim_false]
                  intro x hx
                  rcases List.mem_append.1 hx with h1 | h1
                  · exact (ha' x h1).1
                  · rcases List.mem_cons.1 h1 with rfl | h1
                    · exact isDelim_comma
                    · exact any_isDelim_false.1 (by simpa using hb) x h1
                rw [sVals_raw_comma ha' hhead hbany]
                cases hu : unescapeParam a with
                | error e => exact unescapeParam_err hu
                | ok v =>
                  simp only
                  have := ih (vals ++ [⟨false, v⟩]) b (by simp at hlen; omega)
                  revert this
                  cases sVals n (vals ++ [⟨false, v⟩]) b with
                  | error e => exact id
                  | ok q =>
                    rintro ⟨h1, h2⟩
                    exact ⟨by simp; omega, h2⟩
              · have hdd : isDelim d = true := by simpa [hcm] using hdp
                have hane : a ≠ [] := by
                  rintro rfl
                  simp only [List.nil_append, List.cons.injEq] at hs
                  rw [hs.1] at hc; exact hc hdd
                rw [sVals_raw_last ha' hhead hane hdd]
                cases hu : unescapeParam a with
                | error e => exact unescapeParam_err hu
                | ok v =>
                  simp only
                  refine ⟨?_, d, b, rfl, hdd⟩
                  have : 0 < a.length := List.length_pos_of_ne_nil hane
                  simp; omega

theorem sParam_spec {N : Nat} {t : Str} (h : t.length < N) :
    match sParam N t with
    | .error e => e = .parseError
    | .ok (_, _, s') => s'.length < t.length ∧ ∃ d u, s' = d :: u ∧ isDelim d = true := by
  rcases split_char '=' t with hno | ⟨a, r, rfl, ha⟩
  · rw [sParam_noeq hno]
  · rw [sParam_eq ha]
    split
    · rename_i h1; split at h1
      · simpa using h1.symm
      · have := sVals_spec N [] r (by simp at h; omega)
        cases hv : sVals N [] r with
        | error e => rw [hv] at h1 this; simp at h1 this; subst h1; exact this
        | ok q => rw [hv] at h1; simp at h1
    · rename_i h1; split at h1
      · simp at h1
      · have := sVals_spec N [] r (by simp at h; omega)
        cases hv : sVals N [] r with
        | error e => rw [hv] at h1; simp at h1
        | ok q =>
          rw [hv] at h1 this; simp only [Except.ok.injEq, Prod.mk.injEq] at h1 this
          obtain ⟨-, -, rfl⟩ := h1
          exact ⟨by have := this.1; simp; omega, this.2⟩

theorem sLoop_spec (N : Nat) (name : Str) (n : Nat) : ∀ (params : Params) (s : Str),
    s.length < n → s.length ≤ N → (∃ d t, s = d :: t ∧ isDelim d = true) →
    ∀ e, sLoop N name n params s = .error e → e = .parseError := by
  induction n with
  | zero => intro params s h; omega
  | succ n ih =>
    rintro params s hn hN ⟨d, t, rfl, hd⟩ e he
    simp only [sLoop] at he
    split at he
    · simp at he
    · rename_i h1
      have h2 : d = ';' := by
        simp [isDelim] at hd; exact hd.resolve_left h1
      rw [if_pos h2] at he
      have := sParam_spec (N := N) (t := t) (by simp at hN; omega)
      cases hp : sParam N t with
      | error e' => rw [hp] at he this; simp at he this; rw [← he]; exact this
      | ok q =>
        obtain ⟨pn, vs, s'⟩ := q
        rw [hp] at he this; simp only at he this
        obtain ⟨h3, h4⟩ := this
        exact ih _ _ (by simp at hn; omega) (by simp at hN; omega) h4 e he

theorem sParse_err {line : Str} {e : PyErr} (h : sParse line = .error e) : e = .parseError := by
  rcases split_first isDelim line with hno | ⟨a, d, b, rfl, ha, hd⟩
  · simp [sParse, any_isDelim_false.2 hno] at h; exact h.symm
  · have hany : ¬ ((a ++ d :: b).any isDelim = false) := by simp [hd]
    have ha' : ∀ x ∈ a, (!isDelim x) = true := fun x hx => by simp [ha x hx]
    rw [sParse, if_neg hany, takeWhile_split ha' (by simp [hd]), dropWhile_split ha' (by simp [hd])] at h
    exact sLoop_spec _ _ _ _ _ (by simp; omega) (by simp; omega) ⟨d, b, rfl, hd⟩ e h

theorem parseLine_err {line : Str} {e : PyErr} (h : parseLine line = .error e) : e = .parseError :=
  sParse_err (by rw [← parseLine_eq]; exact h)

/-! ### Round trip -/

/-- What a written parameter value is read back as. -/
def normPVal (v : PVal) : PVal := ⟨v.quoted || needsQuote v.text, v.text.filter (· ≠ '\r')⟩

theorem mem_escape_delim {s : Str} {c : Char} (h : c = ':' ∨ c = ';' ∨ c = ',') :
    c ∈ escapeParam s ↔ c ∈ s := by
  apply mem_escapeParam_iff <;> rcases h with rfl | rfl | rfl <;> decide

theorem escape_safe {s : Str} (h : needsQuote s = false) :
    ∀ x ∈ escapeParam s, isDelim x = false ∧ x ≠ ',' := by
  intro x hx
  simp [needsQuote] at h
  refine ⟨?_, ?_⟩
  · simp only [isDelim, Bool.or_eq_false_iff, beq_eq_false_iff_ne]
    constructor
    · rintro rfl; exact (h _ ((mem_escape_delim (by simp)).1 hx)).1.1 rfl
    · rintro rfl; exact (h _ ((mem_escape_delim (by simp)).1 hx)).1.2 rfl
  · rintro rfl; exact (h _ ((mem_escape_delim (by simp)).1 hx)).2 rfl

theorem escape_noquote (s : Str) : '"' ∉ escapeParam s := fun h => (mem_escapeParam h).1 rfl

theorem escape_head (s : Str) : (escapeParam s).head? ≠ some '"' := by
  intro h
  exact escape_noquote s (List.mem_of_mem_head? h)

/-- The serialized form of the value is not the empty string. -/
def LastOk (vs : List PVal) : Prop := ∃ ws v, vs = ws ++ [v] ∧ serPVal v ≠ []

theorem lastOk_cons {v w : PVal} {vs : List PVal} (h : LastOk (v :: w :: vs)) : LastOk (w :: vs) := by
  obtain ⟨ws, x, h, hx⟩ := h
  cases ws with
  | nil => simp at h
  | cons y ws => simp at h; exact ⟨ws, x, h.2, hx⟩

theorem sVals_ser (vs : List PVal) : ∀ (n : Nat) (vals : List PVal) (d : Char) (rest : Str),
    LastOk vs → isDelim d = true → (serPVals vs ++ d :: rest).length < n →
    sVals n vals (serPVals vs ++ d :: rest) = .ok (vals ++ vs.map normPVal, d :: rest) := by
  induction vs with
  | nil => rintro n vals d rest ⟨ws, v, h, -⟩; simp at h
  | cons v vs ih =>
    intro n vals d rest hlast hd hlen
    cases n with
    | zero => omega
    | succ n =>
      have hany : ∀ a : Str, (a ++ d :: rest).any isDelim = true := by intro a; simp [hd]
      cases vs with
      | nil =>
        have hv : serPVal v ≠ [] := by
          obtain ⟨ws, x, h, hx⟩ := hlast
          cases ws with
          | nil => simp at h; subst h; exact hx
          | cons y ws => simp at h
        simp only [serPVals]
        by_cases hq : v.quoted || needsQuote v.text
        · have e : serPVal v ++ d :: rest = '"' :: (escapeParam v.text ++ '"' :: d :: rest) := by
            simp [serPVal, hq]
          rw [e, sVals_quoted (escape_noquote _), unescape_escape]
          simp [sAfterQuote, hd, normPVal, hq]
        · simp only [Bool.not_eq_true] at hq
          have hn : needsQuote v.text = false := by simp at hq; exact hq.2
          have e : serPVal v = escapeParam v.text := by simp [serPVal, hq]
          rw [e] at hv ⊢
          rw [sVals_raw_last (escape_safe hn) (escape_head _) hv hd, unescape_escape]
          simp [normPVal, hq]
      | cons w vs =>
        have hrest := ih n (vals ++ [normPVal v]) d rest (lastOk_cons hlast) hd (by
          simp only [serPVals, List.length_append, List.length_cons] at hlen ⊢
          omega)
        have e0 : serPVals (v :: w :: vs) ++ d :: rest = serPVal v ++ ',' :: (serPVals (w :: vs) ++ d :: rest) := by
          simp [serPVals]
        rw [e0]
        by_cases hq : v.quoted || needsQuote v.text
        · have e : serPVal v ++ ',' :: (serPVals (w :: vs) ++ d :: rest)
              = '"' :: (escapeParam v.text ++ '"' :: ',' :: (serPVals (w :: vs) ++ d :: rest)) := by
            simp [serPVal, hq]
          rw [e, sVals_quoted (escape_noquote _), unescape_escape]
          simp only [sAfterQuote, List.any_cons, hany, Bool.or_true, Bool.true_eq_false, if_false,
            isDelim_comma, Bool.false_eq_true, if_true]
          have : (⟨true, v.text.filter (· ≠ '\r')⟩ : PVal) = normPVal v := by simp [normPVal, hq]
          rw [this, hrest]; simp
        · simp only [Bool.not_eq_true] at hq
          have hn : needsQuote v.text = false := by simp at hq; exact hq.2
          have e : serPVal v = escapeParam v.text := by simp [serPVal, hq]
          rw [e, sVals_raw_comma (escape_safe hn) (escape_head _) (hany _), unescape_escape]
          have : (⟨false, v.text.filter (· ≠ '\r')⟩ : PVal) = normPVal v := by simp [normPVal, hq]
          simp only
          rw [this, hrest]; simp

/-- A list of values that is empty or whose last value is written as nothing is not read back. -/
theorem sVals_bad (vs : List PVal) : ∀ (n : Nat) (vals : List PVal) (d : Char) (rest : Str),
    ¬ LastOk vs → isDelim d = true → (serPVals vs ++ d :: rest).length < n →
    sVals n vals (serPVals vs ++ d :: rest) = .error .parseError := by
  induction vs with
  | nil =>
    intro n vals d rest _ hd hlen
    cases n with
    | zero => omega
    | succ n => simp [serPVals, sVals_delim hd]
  | cons v vs ih =>
    intro n vals d rest hlast hd hlen
    cases n with
    | zero => omega
    | succ n =>
      have hany : ∀ a : Str, (a ++ d :: rest).any isDelim = true := by intro a; simp [hd]
      cases vs with
      | nil =>
        have hv : serPVal v = [] := by
          by_contra hv; exact hlast ⟨[], v, rfl, hv⟩
        simp [serPVals, hv, sVals_delim hd]
      | cons w vs =>
        have hlast' : ¬ LastOk (w :: vs) := by
          rintro ⟨ws, x, h, hx⟩
          exact hlast ⟨v :: ws, x, by rw [h]; rfl, hx⟩
        have hrest := ih n (vals ++ [normPVal v]) d rest hlast' hd (by
          simp only [serPVals, List.length_append, List.length_cons] at hlen ⊢
          omega)
        have e0 : serPVals (v :: w :: vs) ++ d :: rest = serPVal v ++ ',' :: (serPVals (w :: vs) ++ d :: rest) := by
          simp [serPVals]
        rw [e0]
        by_cases hq : v.quoted || needsQuote v.text
        · have e : serPVal v ++ ',' :: (serPVals (w :: vs) ++ d :: rest)
              = '"' :: (escapeParam v.text ++ '"' :: ',' :: (serPVals (w :: vs) ++ d :: rest)) := by
            simp [serPVal, hq]
          rw [e, sVals_quoted (escape_noquote _), unescape_escape]
          simp only [sAfterQuote, List.any_cons, hany, Bool.or_true, Bool.true_eq_false, if_false,
            isDelim_comma, Bool.false_eq_true, if_true]
          have : (⟨true, v.text.filter (· ≠ '\r')⟩ : PVal) = normPVal v := by simp [normPVal, hq]
          rw [this, hrest]
        · simp only [Bool.not_eq_true] at hq
          have hn : needsQuote v.text = false := by simp at hq; exact hq.2
          have e : serPVal v = escapeParam v.text := by simp [serPVal, hq]
          rw [e, sVals_raw_comma (escape_safe hn) (escape_head _) (hany _), unescape_escape]
          have : (⟨false, v.text.filter (· ≠ '\r')⟩ : PVal) = normPVal v := by simp [normPVal, hq]
          simp only
          rw [this, hrest]

/-- A parameter name that can be written and read. -/
def PnameOk (n : Str) : Prop := '=' ∉ n ∧ ∀ c ∈ n, isDelim c = false

theorem serParams_head (ps : Params) (v : Str) :
    ∃ d t, serParams ps ++ ':' :: v = d :: t ∧ isDelim d = true := by
  cases ps with
  | nil => exact ⟨':', v, rfl, by decide⟩
  | cons p ps => exact ⟨';', _, by simp [serParams]; rfl, by decide⟩

theorem dictSet_new {κ ν : Type} [DecidableEq κ] (d : List (κ × ν)) (k : κ) (v : ν)
    (h : k ∉ d.map Prod.fst) : dictSet d k v = d ++ [(k, v)] := by
  induction d with
  | nil => rfl
  | cons p d ih =>
    obtain ⟨k', v'⟩ := p
    simp only [List.map_cons, List.mem_cons, not_or] at h
    simp [dictSet, Ne.symm h.1, ih h.2]

def normParams (ps : Params) : Params := ps.map fun p => (p.1, p.2.map normPVal)

theorem sLoop_ser (ps : Params) (v : Str) : ∀ (N n : Nat) (name : Str) (acc : Params),
    (∀ p ∈ ps, PnameOk p.1 ∧ LastOk p.2) → ((acc ++ ps).map Prod.fst).Nodup →
    (serParams ps ++ ':' :: v).length < n → (serParams ps ++ ':' :: v).length ≤ N →
    sLoop N name n acc (serParams ps ++ ':' :: v) = .ok (mkContentLine name (acc ++ normParams ps) v) := by
  induction ps with
  | nil =>
    intro N n name acc _ _ hn _
    cases n with
    | zero => omega
    | succ n => simp [serParams, sLoop, normParams]
  | cons p ps ih =>
    obtain ⟨pn, vs⟩ := p
    intro N n name acc hp hnd hn hN
    cases n with
    | zero => omega
    | succ n =>
      have hp1 := hp (pn, vs) (by simp)
      obtain ⟨d, t, hdt, hd⟩ := serParams_head ps v
      have e : serParams ((pn, vs) :: ps) ++ ':' :: v = ';' :: (pn ++ '=' :: (serPVals vs ++ (d :: t))) := by
        rw [← hdt]; simp [serParams]
      rw [e] at hn hN ⊢
      simp only [sLoop, show (';' : Char) ≠ ':' by decide, if_false, if_true]
      rw [sParam_eq hp1.1.1, if_neg (by simpa using hp1.1.2), sVals_ser vs _ _ _ _ hp1.2 hd (by
        simp only [List.length_cons, List.length_append] at hN ⊢; omega)]
      simp only [List.nil_append]
      have hpn : pn ∉ acc.map Prod.fst := by
        simp only [List.map_append, List.map_cons, List.nodup_append] at hnd
        intro hc; exact hnd.2.2 _ hc _ (by simp) rfl
      rw [dictSet_new _ _ _ hpn, ← hdt, ih]
      · simp [normParams]
      · intro p hp'; exact hp p (List.mem_cons_of_mem _ hp')
      · simpa using hnd
      · rw [hdt]; simp only [List.length_cons, List.length_append] at hn ⊢; omega
      · rw [hdt]; simp only [List.length_cons, List.length_append] at hN ⊢; omega

theorem sLoop_bad (ps : Params) (v : Str) : ∀ (N n : Nat) (name : Str) (acc : Params),
    (∀ p ∈ ps, PnameOk p.1) → (∃ p ∈ ps, ¬ LastOk p.2) →
    (serParams ps ++ ':' :: v).length < n → (serParams ps ++ ':' :: v).length ≤ N →
    sLoop N name n acc (serParams ps ++ ':' :: v) = .error .parseError := by
  induction ps with
  | nil => rintro N n name acc _ ⟨p, hp, -⟩; simp at hp
  | cons p ps ih =>
    obtain ⟨pn, vs⟩ := p
    intro N n name acc hp hbad hn hN
    cases n with
    | zero => omega
    | succ n =>
      have hp1 := hp (pn, vs) (by simp)
      obtain ⟨d, t, hdt, hd⟩ := serParams_head ps v
      have e : serParams ((pn, vs) :: ps) ++ ':' :: v = ';' :: (pn ++ '=' :: (serPVals vs ++ (d :: t))) := by
        rw [← hdt]; simp [serParams]
      rw [e] at hn hN ⊢
      have hl : (serPVals vs ++ d :: t).length < N := by
        simp only [List.length_cons, List.length_append] at hN ⊢; omega
      simp only [sLoop, show (';' : Char) ≠ ':' by decide, if_false, if_true]
      by_cases hlast : LastOk vs
      · rw [sParam_eq hp1.1, if_neg (by simpa using hp1.2), sVals_ser vs _ _ _ _ hlast hd hl]
        simp only
        rw [← hdt, ih]
        · intro p hp'; exact hp p (List.mem_cons_of_mem _ hp')
        · obtain ⟨p, hpm, hpb⟩ := hbad
          rcases List.mem_cons.1 hpm with rfl | hpm
          · exact absurd hlast hpb
          · exact ⟨p, hpm, hpb⟩
        · rw [hdt]; simp only [List.length_cons, List.length_append] at hn ⊢; omega
        · rw [hdt]; simp only [List.length_cons, List.length_append] at hN ⊢; omega
      · rw [sParam_eq hp1.1, if_neg (by simpa using hp1.2), sVals_bad vs _ _ _ _ hlast hd hl]

theorem sParse_name {name s : Str} (hname : ∀ c ∈ name, isDelim c = false)
    (hs : ∃ d t, s = d :: t ∧ isDelim d = true) :
    sParse (name ++ s) = sLoop ((name ++ s).length + 1) name ((name ++ s).length + 1) [] s := by
  obtain ⟨d, t, rfl, hd⟩ := hs
  have hany : ¬ ((name ++ d :: t).any isDelim = false) := by simp [hd]
  have ha' : ∀ x ∈ name, (!isDelim x) = true := fun x hx => by simp [hname x hx]
  rw [sParse, if_neg hany, takeWhile_split ha' (by simp [hd]), dropWhile_split ha' (by simp [hd])]

theorem parseLine_ser (cl : ContentLine) (hname : ∀ c ∈ cl.name, isDelim c = false)
    (hp : ∀ p ∈ cl.params, PnameOk p.1 ∧ LastOk p.2) (hnd : (cl.params.map Prod.fst).Nodup) :
    parseLine (serUnwrapped cl) = .ok (mkContentLine cl.name (normParams cl.params) cl.value) := by
  rw [parseLine_eq, serUnwrapped, List.append_assoc, sParse_name hname (serParams_head _ _), sLoop_ser]
  · rfl
  · exact hp
  · simpa using hnd
  · simp; omega
  · simp; omega

theorem parseLine_ser_bad (cl : ContentLine) (hname : ∀ c ∈ cl.name, isDelim c = false)
    (hp : ∀ p ∈ cl.params, PnameOk p.1) (hbad : ∃ p ∈ cl.params, ¬ LastOk p.2) :
    parseLine (serUnwrapped cl) = .error .parseError := by
  rw [parseLine_eq, serUnwrapped, List.append_assoc, sParse_name hname (serParams_head _ _), sLoop_bad]
  · exact hp
  · exact hbad
  · simp; omega
  · simp; omega

end Ics
