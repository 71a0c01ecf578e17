import Verif.Proofs.LineRoundTrip
import Verif.Proofs.Parsed
import Verif.Spec.Grammar
import Mathlib.Data.List.Induction

/-
The parser and the grammar agree.
-/
namespace Ics

theorem noDelim_iff {s : Str} : NoDelim s ↔ ∀ c ∈ s, isDelim c = false := by
  constructor
  · rintro ⟨h1, h2⟩ c hc
    simp only [isDelim, Bool.or_eq_false_iff, beq_eq_false_iff_ne]
    exact ⟨fun e => h1 (e ▸ hc), fun e => h2 (e ▸ hc)⟩
  · intro h
    exact ⟨fun hc => absurd (h _ hc) (by decide), fun hc => absurd (h _ hc) (by decide)⟩

theorem caretText_iff {s t : Str} : CaretText s t ↔ unescapeParam s = .ok t := by
  constructor
  · intro h
    induction h with
    | nil => rfl
    | plain c hc _ ih => rw [unescapeParam_cons hc, ih]; rfl
    | newline _ ih => rw [unescapeParam_caret, if_pos rfl, ih]; rfl
    | caret _ ih => rw [unescapeParam_caret, if_neg (by decide), if_pos rfl, ih]; rfl
    | quote _ ih => rw [unescapeParam_caret, if_neg (by decide), if_neg (by decide), if_pos rfl, ih]; rfl
  · intro h
    fun_induction unescapeParam s generalizing t with
    | case1 => cases h; exact .nil
    | case2 s ih => obtain ⟨u, hu, rfl⟩ := map_ok_iff.1 h; exact .newline (ih hu)
    | case3 s _ ih => obtain ⟨u, hu, rfl⟩ := map_ok_iff.1 h; exact .caret (ih hu)
    | case4 s _ _ ih => obtain ⟨u, hu, rfl⟩ := map_ok_iff.1 h; exact .quote (ih hu)
    | case5 => cases h
    | case6 => cases h
    | case7 c s h1 h2 ih =>
      obtain ⟨u, hu, rfl⟩ := map_ok_iff.1 h
      refine .plain c ?_ (ih hu)
      rintro rfl
      cases s with
      | nil => exact h2 rfl rfl
      | cons x s => exact h1 x s rfl rfl

theorem vals_complete {s : Str} {vs : List PVal} (h : ValuesText s vs) : ∀ (n : Nat) (acc : List PVal) (d : Char) (rest : Str),
    isDelim d = true → (s ++ d :: rest).length < n → sVals n acc (s ++ d :: rest) = .ok (acc ++ vs, d :: rest) := by
  induction h with
  | @last s v hv hne =>
    intro n acc d rest hd hn
    obtain ⟨n, rfl⟩ : ∃ m, n = m + 1 := ⟨n - 1, by omega⟩
    cases hv with
    | @quoted a t ha ht =>
      rw [show '"' :: a ++ ['"'] ++ d :: rest = '"' :: (a ++ '"' :: (d :: rest)) by simp, sVals_quoted ha, caretText_iff.1 ht]
      simp [sAfterQuote, hd]
    | @raw _ t h1 h2 h3 h4 =>
      rw [sVals_raw_last (fun x hx => ⟨noDelim_iff.1 h1 x hx, fun e => h2 (e ▸ hx)⟩) h3 hne hd, caretText_iff.1 h4]
  | @more s r v vs hv _ ih =>
    intro n acc d rest hd hn
    obtain ⟨n, rfl⟩ : ∃ m, n = m + 1 := ⟨n - 1, by omega⟩
    have hany : (r ++ d :: rest).any isDelim = true := by simp [hd]
    have := ih n (acc ++ [v]) d rest hd (by simp at hn ⊢; omega)
    cases hv with
    | @quoted a t ha ht =>
      rw [show '"' :: a ++ ['"'] ++ ',' :: r ++ d :: rest = '"' :: (a ++ '"' :: (',' :: (r ++ d :: rest))) by simp,
        sVals_quoted ha, caretText_iff.1 ht]
      simp only [sAfterQuote, List.any_cons, hany, Bool.or_true, Bool.true_eq_false, if_false, isDelim_comma,
        Bool.false_eq_true, if_true]
      rw [this]
      simp
    | @raw _ t h1 h2 h3 h4 =>
      rw [show s ++ ',' :: r ++ d :: rest = s ++ ',' :: (r ++ d :: rest) by simp,
        sVals_raw_comma (fun x hx => ⟨noDelim_iff.1 h1 x hx, fun e => h2 (e ▸ hx)⟩) h3 (by simp [hd]), caretText_iff.1 h4]
      dsimp only
      rw [this]
      simp

theorem vals_sound {n : Nat} {acc vs : List PVal} {s s' : Str} (h : sVals n acc s = .ok (vs, s')) :
    ∃ ws a, vs = acc ++ ws ∧ s = a ++ s' ∧ ValuesText a ws ∧ ∃ d t, s' = d :: t ∧ isDelim d = true := by
  induction n generalizing acc s with
  | zero => cases h
  | succ n ih =>
    by_cases hany : s.any isDelim = false
    · rw [sVals_nodelim (any_isDelim_false.1 hany)] at h; cases h
    · cases s with
      | nil => simp at hany
      | cons c t =>
        by_cases hc : isDelim c = true
        · rw [sVals_delim hc] at h; cases h
        · by_cases hq : c = '"'
          · subst hq
            rcases split_char '"' t with hno | ⟨a, b, rfl, ha⟩
            · rw [sVals_unclosed hno] at h; cases h
            · rw [sVals_quoted ha] at h
              cases hu : unescapeParam a with
              | error e => rw [hu] at h; cases h
              | ok v =>
                rw [hu] at h
                simp only [sAfterQuote] at h
                split at h
                · cases h
                · cases b with
                  | nil => cases h
                  | cons x b =>
                    dsimp only at h
                    split at h
                    · rename_i hx
                      cases h
                      exact ⟨[⟨true, v⟩], '"' :: a ++ ['"'], rfl, by simp,
                        .last (.quoted ha (caretText_iff.2 hu)) (by simp), x, b, rfl, hx⟩
                    · split at h
                      · rename_i hx
                        subst hx
                        obtain ⟨ws, a', h1, h2, h3, h4⟩ := ih h
                        exact ⟨⟨true, v⟩ :: ws, ('"' :: a ++ ['"']) ++ ',' :: a', by rw [h1]; simp, by rw [h2]; simp,
                          .more (.quoted ha (caretText_iff.2 hu)) h3, h4⟩
                      · cases h
          · rcases split_first (fun x => isDelim x || x == ',') (c :: t) with hno | ⟨a, d, b, hs, ha, hdp⟩
            · exfalso
              apply hany
              rw [any_isDelim_false]
              intro x hx
              have := hno x hx
              simp only [Bool.or_eq_false_iff] at this
              exact this.1
            · have ha' : ∀ x ∈ a, isDelim x = false ∧ x ≠ ',' := fun x hx => by
                have := ha x hx
                simpa using this
              have hhead : a.head? ≠ some '"' := by
                cases a with
                | nil => simp
                | cons y a =>
                  simp only [List.cons_append, List.cons.injEq] at hs
                  simp only [List.head?_cons, ne_eq, Option.some.injEq]
                  rw [← hs.1]; exact hq
              have hraw : ∀ v, unescapeParam a = .ok v → ValueText a ⟨false, v⟩ := fun v hu =>
                .raw (noDelim_iff.2 fun x hx => (ha' x hx).1) (fun hx => (ha' _ hx).2 rfl) hhead (caretText_iff.2 hu)
              rw [hs] at h hany ⊢
              by_cases hcm : d = ','
              · subst hcm
                have hbany : ¬ b.any isDelim = false := by
                  intro hb
                  apply hany
                  rw [any_isDelim_false] at hb ⊢
                  intro x hx
                  rcases List.mem_append.1 hx with hx | hx
                  · exact (ha' x hx).1
                  · rcases List.mem_cons.1 hx with rfl | hx
                    · decide
                    · exact hb x hx
                rw [sVals_raw_comma ha' hhead (by simpa using hbany)] at h
                cases hu : unescapeParam a with
                | error e => rw [hu] at h; cases h
                | ok v =>
                  rw [hu] at h
                  obtain ⟨ws, a', h1, h2, h3, h4⟩ := ih h
                  exact ⟨⟨false, v⟩ :: ws, a ++ ',' :: a', by rw [h1]; simp, by rw [h2]; simp, .more (hraw v hu) h3, h4⟩
              · have hdd : isDelim d = true := by simpa [hcm] using hdp
                have hane : a ≠ [] := by
                  rintro rfl
                  simp only [List.nil_append, List.cons.injEq] at hs
                  rw [hs.1] at hc; exact hc hdd
                rw [sVals_raw_last ha' hhead hane hdd] at h
                cases hu : unescapeParam a with
                | error e => rw [hu] at h; cases h
                | ok v =>
                  rw [hu] at h
                  cases h
                  exact ⟨[⟨false, v⟩], a, rfl, rfl, .last (hraw v hu) hane, d, b, rfl, hdd⟩

theorem param_complete {n s : Str} {vs : List PVal} {N : Nat} {d : Char} {rest : Str} (hn : NoDelim n) (he : '=' ∉ n)
    (hs : ValuesText s vs) (hd : isDelim d = true) (hN : (s ++ d :: rest).length < N) :
    sParam N (n ++ '=' :: (s ++ d :: rest)) = .ok (n, vs, d :: rest) := by
  rw [sParam_eq he, any_isDelim_false.2 (noDelim_iff.1 hn), vals_complete hs N [] d rest hd hN]
  simp

theorem param_sound {N : Nat} {t n s' : Str} {vs : List PVal} (h : sParam N t = .ok (n, vs, s')) :
    NoDelim n ∧ '=' ∉ n ∧ ∃ a, t = n ++ '=' :: (a ++ s') ∧ ValuesText a vs ∧ ∃ d u, s' = d :: u ∧ isDelim d = true := by
  rcases split_char '=' t with hno | ⟨a, r, rfl, ha⟩
  · rw [sParam_noeq hno] at h; cases h
  · rw [sParam_eq ha] at h
    split at h
    · cases h
    · rename_i hany
      cases hv : sVals N [] r with
      | error e => rw [hv] at h; cases h
      | ok q =>
        obtain ⟨vs', s⟩ := q
        rw [hv] at h
        cases h
        obtain ⟨ws, a', h1, h2, h3, h4⟩ := vals_sound hv
        simp only [List.nil_append] at h1
        subst h1
        exact ⟨noDelim_iff.2 (any_isDelim_false.1 (by simpa using hany)), ha, a', by rw [h2], h3, h4⟩

/-- What follows a parameter starts with a delimiter. -/
theorem params_head {p : Str} {ps : List (Str × List PVal)} (h : ParamsText p ps) (v : Str) :
    ∃ d t, p ++ ':' :: v = d :: t ∧ isDelim d = true := by
  cases h with
  | nil => exact ⟨':', v, rfl, by decide⟩
  | more => exact ⟨';', _, rfl, by decide⟩

theorem loop_complete {p : Str} {ps : List (Str × List PVal)} (h : ParamsText p ps) (name v : Str) : ∀ (N n : Nat) (acc : Params),
    (p ++ ':' :: v).length < n → (p ++ ':' :: v).length ≤ N →
    sLoop N name n acc (p ++ ':' :: v) = .ok (mkContentLine name (ps.foldl (fun d kv => dictSet d kv.1 kv.2) acc) v) := by
  induction h with
  | nil =>
    intro N n acc hn hN
    obtain ⟨n, rfl⟩ : ∃ m, n = m + 1 := ⟨n - 1, by omega⟩
    simp [sLoop]
  | @more pn s r vs ps h1 h2 h3 h4 ih =>
    intro N n acc hn hN
    obtain ⟨n, rfl⟩ : ∃ m, n = m + 1 := ⟨n - 1, by omega⟩
    obtain ⟨d, t, he, hd⟩ := params_head h4 v
    rw [show ';' :: pn ++ '=' :: s ++ r ++ ':' :: v = ';' :: (pn ++ '=' :: (s ++ (r ++ ':' :: v))) by simp] at hn hN ⊢
    simp only [sLoop, if_neg (by decide : ¬ (';' = ':')), if_true]
    rw [he, param_complete h1 h2 h3 hd (by rw [← he]; simp at hn hN ⊢; omega)]
    dsimp only
    rw [← he, ih N n _ (by simp at hn ⊢; omega) (by simp at hN ⊢; omega)]
    rfl

theorem loop_sound {N : Nat} {name : Str} {n : Nat} {acc : Params} {s : Str} {cl : ContentLine}
    (h : sLoop N name n acc s = .ok cl) :
    ∃ p ps v, ParamsText p ps ∧ s = p ++ ':' :: v ∧ cl = mkContentLine name (ps.foldl (fun d kv => dictSet d kv.1 kv.2) acc) v := by
  induction n generalizing acc s with
  | zero => cases h
  | succ n ih =>
    cases s with
    | nil => cases h
    | cons c t =>
      simp only [sLoop] at h
      split at h
      · rename_i hc
        subst hc
        cases h
        exact ⟨[], [], t, .nil, rfl, rfl⟩
      · split at h
        · rename_i hc
          subst hc
          cases hp : sParam N t with
          | error e => rw [hp] at h; cases h
          | ok q =>
            obtain ⟨pn, vs, s'⟩ := q
            rw [hp] at h
            dsimp only at h
            obtain ⟨h1, h2, a, h3, h4, -⟩ := param_sound hp
            obtain ⟨p, ps, v, h5, h6, h7⟩ := ih h
            refine ⟨';' :: pn ++ '=' :: a ++ p, (pn, vs) :: ps, v, .more h1 h2 h4 h5, ?_, h7⟩
            rw [h3, h6]
            simp
        · cases h

theorem lastSaid_snoc (ps : List (Str × List PVal)) (k j : Str) (vs : List PVal) :
    lastSaid (ps ++ [(k, vs)]) j = if k = j then vs else lastSaid ps j := by
  unfold lastSaid
  rw [List.reverse_append]
  simp only [List.reverse_singleton, List.singleton_append, List.find?_cons]
  by_cases h : k = j <;> simp [h]

theorem firstMentioned_snoc (ps : List (Str × List PVal)) (k : Str) (vs : List PVal) :
    firstMentioned (ps ++ [(k, vs)]) = if k ∈ firstMentioned ps then firstMentioned ps else firstMentioned ps ++ [k] := by
  unfold firstMentioned
  simp only [List.map_append, List.map_cons, List.map_nil, List.reverse_append, List.reverse_singleton,
    List.singleton_append, List.mem_reverse, List.mem_dedup]
  split
  · rename_i h
    rw [List.dedup_cons_of_mem (by simpa using h)]
  · rename_i h
    rw [List.dedup_cons_of_notMem (by simpa using h)]
    simp

theorem dictSet_tab {ν : Type} (f g : Str → ν) (k : Str) (v : ν) (hk : g k = v) : ∀ ks : List Str, ks.Nodup →
    (∀ j ∈ ks, j ≠ k → g j = f j) →
    dictSet (ks.map fun j => (j, f j)) k v = (if k ∈ ks then ks else ks ++ [k]).map fun j => (j, g j) := by
  intro ks
  induction ks with
  | nil => intro _ _; simp [dictSet, hk]
  | cons j ks ih =>
    intro hn hg
    rw [List.nodup_cons] at hn
    simp only [List.map_cons, dictSet]
    by_cases h : j = k
    · subst h
      simp only [if_true, List.mem_cons, true_or, List.map_cons, hk, List.cons.injEq, true_and]
      apply List.map_congr_left
      intro x hx
      rw [hg x (List.mem_cons_of_mem _ hx) (fun e => hn.1 (e ▸ hx))]
    · rw [if_neg h, ih hn.2 fun x hx => hg x (List.mem_cons_of_mem _ hx)]
      have : (k ∈ j :: ks) ↔ k ∈ ks := by simp [Ne.symm h]
      by_cases hk' : k ∈ ks
      · rw [if_pos hk', if_pos (this.2 hk')]
        simp [hg j (by simp) h]
      · rw [if_neg hk', if_neg fun e => hk' (this.1 e)]
        simp [hg j (by simp) h]

theorem merged_eq (ps : List (Str × List PVal)) :
    ps.foldl (fun d kv => dictSet d kv.1 kv.2) [] = mergedParams ps := by
  induction ps using List.reverseRecOn with
  | nil => rfl
  | append_singleton ps p ih =>
    obtain ⟨k, vs⟩ := p
    rw [List.foldl_append, ih]
    simp only [List.foldl_cons, List.foldl_nil, mergedParams, firstMentioned_snoc]
    apply dictSet_tab
    · rw [lastSaid_snoc, if_pos rfl]
    · unfold firstMentioned
      rw [List.nodup_reverse]
      exact List.nodup_dedup _
    · intro j _ hj
      rw [lastSaid_snoc, if_neg (Ne.symm hj)]

theorem line_complete {line name value : Str} {ps : List (Str × List PVal)} (h : LineText line name ps value) :
    parseLine line = .ok ⟨upper name, mergedParams ps, value⟩ := by
  obtain ⟨hn, p, hp, rfl⟩ := h
  obtain ⟨d, t, he, hd⟩ := params_head hp value
  rw [parseLine_eq, List.append_assoc, he, sParse_name (noDelim_iff.1 hn) ⟨d, t, rfl, hd⟩, ← he,
    loop_complete hp _ _ _ _ _ (by simp; omega) (by simp; omega), merged_eq]
  rfl

theorem line_sound {line : Str} {cl : ContentLine} (h : parseLine line = .ok cl) :
    ∃ name ps value, LineText line name ps value ∧ cl = ⟨upper name, mergedParams ps, value⟩ := by
  rw [parseLine_eq] at h
  rcases split_first isDelim line with hno | ⟨a, d, b, rfl, ha, hd⟩
  · simp [sParse, any_isDelim_false.2 hno] at h
  · rw [sParse_name ha ⟨d, b, rfl, hd⟩] at h
    obtain ⟨p, ps, v, h1, h2, h3⟩ := loop_sound h
    rw [merged_eq] at h3
    exact ⟨a, ps, v, ⟨noDelim_iff.2 ha, p, h1, by rw [h2, List.append_assoc]⟩, h3⟩

theorem params_unique {p q : Str} {ps qs : List (Str × List PVal)} {v w : Str} (hp : ParamsText p ps) (hq : ParamsText q qs)
    (h : p ++ ':' :: v = q ++ ':' :: w) : ps = qs ∧ v = w := by
  induction hp generalizing q qs with
  | nil =>
    cases hq with
    | nil => simpa using h
    | more => simp at h
  | @more n s r vs ps h1 h2 h3 h4 ih =>
    cases hq with
    | nil => simp at h
    | @more n' s' r' vs' ps' g1 g2 g3 g4 =>
      have h' : n ++ '=' :: (s ++ (r ++ ':' :: v)) = n' ++ '=' :: (s' ++ (r' ++ ':' :: w)) := by simpa using h
      obtain ⟨d, t, he, hd⟩ := params_head h4 v
      obtain ⟨d', t', he', hd'⟩ := params_head g4 w
      rw [he, he'] at h'
      have e1 := param_complete (rest := t) (N := (s ++ d :: t).length + (s' ++ d' :: t').length + 1) h1 h2 h3 hd (by omega)
      have e2 := param_complete (rest := t') (N := (s ++ d :: t).length + (s' ++ d' :: t').length + 1) g1 g2 g3 hd' (by omega)
      rw [h', e2] at e1
      simp only [Except.ok.injEq, Prod.mk.injEq] at e1
      obtain ⟨rfl, rfl, e⟩ := e1
      obtain ⟨rfl, rfl⟩ := ih g4 (by rw [he, he', e])
      exact ⟨rfl, rfl⟩

theorem line_unique {line n n' v v' : Str} {ps ps' : List (Str × List PVal)} (h : LineText line n ps v)
    (h' : LineText line n' ps' v') : n = n' ∧ ps = ps' ∧ v = v' := by
  obtain ⟨hn, p, hp, rfl⟩ := h
  obtain ⟨hn', p', hp', he⟩ := h'
  obtain ⟨d, t, e1, hd⟩ := params_head hp v
  obtain ⟨d', t', e2, hd'⟩ := params_head hp' v'
  rw [List.append_assoc, List.append_assoc, e1, e2] at he
  have ht := takeWhile_split (p := fun c => !isDelim c) (a := n) (b := t) (c := d)
    (fun x hx => by simp [noDelim_iff.1 hn x hx]) (by simp [hd])
  have ht' := takeWhile_split (p := fun c => !isDelim c) (a := n') (b := t') (c := d')
    (fun x hx => by simp [noDelim_iff.1 hn' x hx]) (by simp [hd'])
  rw [he, ht'] at ht
  subst ht
  have := List.append_cancel_left he
  rw [← e1, ← e2] at this
  obtain ⟨h1, h2⟩ := params_unique hp hp' this
  exact ⟨rfl, h1, h2⟩

end Ics
