import Mathlib.Data.List.TakeWhile
import Verif.Proofs.Tree
import Verif.Proofs.Component

/-
What the parser yields can be written: every content line it accepts, and every container.
-/
namespace Ics

/-! ### Content lines -/

theorem mem_unescapeParam {s t : Str} (h : unescapeParam s = .ok t) : '\r' ∉ s → '\r' ∉ t := by
  fun_induction unescapeParam s generalizing t with
  | case1 => cases h; exact id
  | case2 s ih =>
    obtain ⟨u, hu, e⟩ := map_ok_iff.1 h
    subst e
    intro hs
    simp only [List.mem_cons, not_or] at hs ⊢
    exact ⟨by decide, ih hu hs.2.2⟩
  | case3 s _ ih =>
    obtain ⟨u, hu, e⟩ := map_ok_iff.1 h
    subst e
    intro hs
    simp only [List.mem_cons, not_or] at hs ⊢
    exact ⟨by decide, ih hu hs.2.2⟩
  | case4 s _ _ ih =>
    obtain ⟨u, hu, e⟩ := map_ok_iff.1 h
    subst e
    intro hs
    simp only [List.mem_cons, not_or] at hs ⊢
    exact ⟨by decide, ih hu hs.2.2⟩
  | case5 => cases h
  | case6 => cases h
  | case7 c s _ _ ih =>
    obtain ⟨u, hu, e⟩ := map_ok_iff.1 h
    subst e
    intro hs
    simp only [List.mem_cons, not_or] at hs ⊢
    exact ⟨hs.1, ih hu hs.2⟩

theorem unescapeParam_ne {s t : Str} (h : unescapeParam s = .ok t) (hs : s ≠ []) : t ≠ [] := by
  fun_induction unescapeParam s generalizing t with
  | case1 => exact absurd rfl hs
  | case2 s ih | case3 s _ ih | case4 s _ _ ih =>
    obtain ⟨u, hu, e⟩ := map_ok_iff.1 h
    subst e
    exact List.cons_ne_nil _ _
  | case5 => cases h
  | case6 => cases h
  | case7 c s _ _ ih =>
    obtain ⟨u, hu, e⟩ := map_ok_iff.1 h
    subst e
    exact List.cons_ne_nil _ _

/-- Values as a content line can have them. -/
def GoodVals (vs : List PVal) : Prop :=
  (∃ init last, vs = init ++ [last] ∧ (last.quoted = true ∨ last.text ≠ [])) ∧ ∀ v ∈ vs, '\r' ∉ v.text

theorem sVals_good {n : Nat} {vals vs : List PVal} {s s' : Str} (h : sVals n vals s = .ok (vs, s'))
    (hv : ∀ v ∈ vals, '\r' ∉ v.text) (hs : '\r' ∉ s) : GoodVals vs ∧ s' <:+ s := by
  induction n generalizing vals s with
  | zero => cases h
  | succ n ih =>
    rw [sVals.eq_def] at h
    dsimp only at h
    split at h
    · cases h
    · cases s with
      | nil => cases h
      | cons c t =>
        dsimp only at h
        have ht : '\r' ∉ t := fun h => hs (List.mem_cons_of_mem _ h)
        split at h
        · cases h
        · rename_i hnd
          split at h
          · -- quoted
            split at h
            · cases h
            · rename_i q rest hdrop
              have hsuf : q :: rest <:+ t := hdrop ▸ List.dropWhile_suffix _
              have hrest : rest <:+ t := (List.suffix_cons _ _).trans hsuf
              split at h
              · cases h
              · rename_i v hun
                have hvr : '\r' ∉ v := mem_unescapeParam hun fun hm => ht (List.takeWhile_subset _ hm)
                have hv' : ∀ x ∈ vals ++ [⟨true, v⟩], '\r' ∉ x.text := by
                  intro x hx
                  rcases List.mem_append.1 hx with hx | hx
                  · exact hv x hx
                  · rw [List.mem_singleton.1 hx]
                    exact hvr
                split at h
                · cases h
                · cases rest with
                  | nil => cases h
                  | cons d rest' =>
                    dsimp only at h
                    split at h
                    · cases h
                      exact ⟨⟨⟨vals, _, rfl, .inl rfl⟩, hv'⟩, hrest.trans (List.suffix_cons _ _)⟩
                    · split at h
                      · obtain ⟨h1, h2⟩ := ih h hv' fun hm => ht (hrest.mem (List.mem_cons_of_mem _ hm))
                        exact ⟨h1, h2.trans ((List.suffix_cons _ _).trans (hrest.trans (List.suffix_cons _ _)))⟩
                      · cases h
          · split at h
            · cases h
            · rename_i v hun
              have hvr : '\r' ∉ v := mem_unescapeParam hun fun hm => hs (List.takeWhile_subset _ hm)
              have hv' : ∀ x ∈ vals ++ [⟨false, v⟩], '\r' ∉ x.text := by
                intro x hx
                rcases List.mem_append.1 hx with hx | hx
                · exact hv x hx
                · rw [List.mem_singleton.1 hx]
                  exact hvr
              split at h
              · cases h
              · rename_i d rest' hdrop
                have hsuf : d :: rest' <:+ c :: t := hdrop ▸ List.dropWhile_suffix _
                split at h
                · obtain ⟨h1, h2⟩ := ih h hv' fun hm => hs (hsuf.mem (List.mem_cons_of_mem _ hm))
                  exact ⟨h1, h2.trans ((List.suffix_cons _ _).trans hsuf)⟩
                · rename_i hdc
                  cases h
                  refine ⟨⟨⟨vals, _, rfl, .inr ?_⟩, hv'⟩, hsuf⟩
                  apply unescapeParam_ne hun
                  intro e
                  have hd : d = c := by
                    have := List.takeWhile_append_dropWhile (p := fun c => !isDelim c && c != ',') (l := c :: t)
                    rw [e, hdrop] at this
                    exact (List.cons.inj this).1
                  have hc : (!isDelim c && c != ',') = true := by
                    rw [hd] at hdc
                    simp only [Bool.and_eq_true, bne_iff_ne, ne_eq]
                    exact ⟨by simpa using hnd, hdc⟩
                  rw [List.takeWhile_cons_of_pos (p := fun c => !isDelim c && c != ',') hc] at e
                  cases e

/-- A parameter name without delimiters and line breaks. -/
def GoodName (n : Str) : Prop := NoBreak n ∧ ∀ c ∈ n, c ≠ '=' ∧ c ≠ ':' ∧ c ≠ ';'

theorem noBreak_sub {s t : Str} (h : NoBreak t) (hs : ∀ c ∈ s, c ∈ t) : NoBreak s :=
  ⟨fun hm => h.1 (hs _ hm), fun hm => h.2 (hs _ hm)⟩

theorem sParam_good {N : Nat} {t pn s : Str} {vs : List PVal} (h : sParam N t = .ok (pn, vs, s)) (ht : NoBreak t) :
    GoodName pn ∧ GoodVals vs ∧ s <:+ t := by
  unfold sParam at h
  split at h
  · cases h
  · rename_i e r hdrop
    have hsuf : e :: r <:+ t := hdrop ▸ List.dropWhile_suffix _
    split at h
    · cases h
    · rename_i hany
      split at h
      · cases h
      · rename_i vs' s' hv
        cases h
        obtain ⟨h1, h2⟩ := sVals_good hv (fun _ h => absurd h List.not_mem_nil)
          fun hm => ht.1 (hsuf.mem (List.mem_cons_of_mem _ hm))
        refine ⟨⟨noBreak_sub ht fun c hc => List.takeWhile_subset _ hc, fun c hc => ?_⟩, h1,
          h2.trans ((List.suffix_cons _ _).trans hsuf)⟩
        have hd := any_isDelim_false.1 (by simpa using hany) c hc
        have he := List.mem_takeWhile_imp hc
        simp only [isDelim, Bool.or_eq_false_iff, beq_eq_false_iff_ne] at hd
        exact ⟨by simpa using he, hd.1, hd.2⟩

/-- Parameters as a content line can have them. -/
structure GoodDict (p : Params) : Prop where
  names : ∀ kv ∈ p, GoodName kv.1
  vals : ∀ kv ∈ p, GoodVals kv.2
  distinct : (p.map Prod.fst).Nodup

theorem goodDict_nil : GoodDict [] := ⟨nofun, nofun, List.nodup_nil⟩

theorem goodDict_set {p : Params} {n : Str} {vs : List PVal} (h : GoodDict p) (hn : GoodName n) (hv : GoodVals vs) :
    GoodDict (dictSet p n vs) where
  names kv hk := (mem_dictSet hk).elim (fun e => e ▸ hn) (h.names kv)
  vals kv hk := (mem_dictSet hk).elim (fun e => e ▸ hv) (h.vals kv)
  distinct := uniqueKeys_dictSet n vs h.distinct

theorem sLoop_good {N : Nat} {name : Str} {n : Nat} {params : Params} {s : Str} {cl : ContentLine}
    (h : sLoop N name n params s = .ok cl) (hp : GoodDict params) (hs : NoBreak s) :
    cl.name = upper name ∧ GoodDict cl.params ∧ NoBreak cl.value := by
  induction n generalizing params s with
  | zero => cases h
  | succ n ih =>
    cases s with
    | nil => cases h
    | cons c t =>
      have ht : NoBreak t := noBreak_sub hs fun _ => List.mem_cons_of_mem _
      unfold sLoop at h
      split at h
      · cases h
        exact ⟨rfl, hp, ht⟩
      · split at h
        · split at h
          · cases h
          · rename_i pn vs s' hsp
            obtain ⟨h1, h2, h3⟩ := sParam_good hsp ht
            exact ih h (goodDict_set hp h1 h2) (noBreak_sub ht fun _ => h3.mem)
        · cases h

theorem toUpper_delim {c d : Char} (h : c.toUpper = d) (hd : d ∈ [':', ';', ' ', '\t', '\r', '\n']) : c = d := by
  unfold Char.toUpper at h
  split at h
  · rename_i hc
    have h' := congrArg UInt32.toNat (show c.val + ('A'.val - 'a'.val) = d.val by rw [← h])
    rw [UInt32.toNat_add, show ('A'.val - 'a'.val).toNat = 4294967264 from rfl] at h'
    have h1 : 97 ≤ c.val.toNat := hc.1
    have h2 : c.val.toNat ≤ 122 := hc.2
    have h3 : d.val.toNat < 65 := by
      simp only [List.mem_cons, List.not_mem_nil, or_false] at hd
      rcases hd with rfl | rfl | rfl | rfl | rfl | rfl <;> decide
    omega
  · exact h

theorem mem_upper_delim {s : Str} {d : Char} (h : d ∈ upper s) (hd : d ∈ [':', ';', ' ', '\t', '\r', '\n']) : d ∈ s := by
  obtain ⟨c, hc, e⟩ := List.mem_map.1 h
  exact toUpper_delim e hd ▸ hc

theorem noBreak_upper {s : Str} (h : NoBreak s) : NoBreak (upper s) :=
  ⟨fun hm => h.1 (mem_upper_delim hm (by decide)), fun hm => h.2 (mem_upper_delim hm (by decide))⟩

/-- A line as the parser gets it: without line breaks, and without a space or tab in front. -/
structure RawLine (l : Str) : Prop where
  ne : l ≠ []
  noBreak : NoBreak l
  noIndent : startsFold l = false

/-- A content line that can be written in a container unless it is a BEGIN or END line. -/
structure ParsedLine (cl : ContentLine) : Prop extends WritableLine cl where
  nameBreak : NoBreak cl.name
  pnameBreak : ∀ p ∈ cl.params, NoBreak p.1
  valueBreak : NoBreak cl.value
  noIndent : cl.name.head? ≠ some ' ' ∧ cl.name.head? ≠ some '\t'

theorem parseLine_writable {l : Str} {cl : ContentLine} (h : parseLine l = .ok cl) (hl : NoBreak l) :
    WritableLine cl ∧ NoBreak cl.name ∧ (∀ p ∈ cl.params, NoBreak p.1) ∧ NoBreak cl.value ∧
      cl.name = upper (l.takeWhile fun c => !isDelim c) := by
  rw [parseLine_eq] at h
  unfold sParse at h
  split at h
  · cases h
  · obtain ⟨h1, h2, h3⟩ := sLoop_good h goodDict_nil (noBreak_sub hl fun c hc => List.dropWhile_subset _ hc)
    have hn : NoBreak (l.takeWhile fun c => !isDelim c) := noBreak_sub hl fun c hc => List.takeWhile_subset _ hc
    refine ⟨⟨by rw [h1, upper_upper], ?_, fun p hp => (h2.names p hp).2, h2.distinct, fun p hp => (h2.vals p hp).1,
      fun p hp => (h2.vals p hp).2⟩, by rw [h1]; exact noBreak_upper hn, fun p hp => (h2.names p hp).1, h3, h1⟩
    intro c hc
    rw [h1] at hc
    constructor
    · rintro rfl
      have := List.mem_takeWhile_imp (mem_upper_delim hc (by decide))
      simp [isDelim] at this
    · rintro rfl
      have := List.mem_takeWhile_imp (mem_upper_delim hc (by decide))
      simp [isDelim] at this

theorem parseLine_good {l : Str} {cl : ContentLine} (h : parseLine l = .ok cl) (hl : RawLine l) : ParsedLine cl := by
  obtain ⟨h1, h2, h3, h4, h5⟩ := parseLine_writable h hl.noBreak
  have hi : ∀ d, d = ' ' ∨ d = '\t' → cl.name.head? ≠ some d := by
    intro d hd e
    rw [h5] at e
    cases l with
    | nil => cases e
    | cons x l =>
      by_cases hx : (!isDelim x) = true
      · rw [List.takeWhile_cons_of_pos (p := fun c => !isDelim c) hx] at e
        have e : some x.toUpper = some d := e
        have e := toUpper_delim (Option.some.inj e) (by rcases hd with rfl | rfl <;> decide)
        have := hl.noIndent
        rw [startsFold, e] at this
        rcases hd with rfl | rfl <;> cases this
      · rw [List.takeWhile_cons_of_neg (p := fun c => !isDelim c) hx] at e
        cases e
  exact ⟨h1, h2, h3, h4, hi _ (.inl rfl), hi _ (.inr rfl)⟩

/-! ### Unfolding -/

theorem unfoldFrom_good {cur : Option Str} {ls : List Str} (hc : ∀ c, cur = some c → RawLine c) (hs : ∀ l ∈ ls, NoBreak l) :
    ∀ l ∈ (unfoldFrom cur ls).items, RawLine l := by
  induction ls generalizing cur with
  | nil =>
    intro l hl
    exact hc l (Option.mem_toList.1 hl)
  | cons x ls ih =>
    have hls : ∀ l ∈ ls, NoBreak l := fun l hl => hs l (List.mem_cons_of_mem _ hl)
    have hx : NoBreak (rstripNl x) := noBreak_sub (hs x List.mem_cons_self) fun c hc => by
      unfold rstripNl at hc
      exact List.mem_reverse.1 (List.dropWhile_subset _ (List.mem_reverse.1 hc))
    unfold unfoldFrom
    dsimp only
    split
    · exact ih hc hls
    · rename_i hemp
      have hne : rstripNl x ≠ [] := fun e => hemp (by rw [e]; rfl)
      split
      · intro l hl
        exact absurd hl List.not_mem_nil
      · split
        · split
          · intro l hl
            exact absurd hl List.not_mem_nil
          · rename_i hf
            exact ih (fun c e => Option.some.inj e ▸ ⟨hne, hx, by simpa using hf⟩) hls
        · rename_i c
          have hcc := hc c rfl
          split
          · rename_i hf
            refine ih (fun c' e => ?_) hls
            rw [← Option.some.inj e]
            refine ⟨fun e => hcc.ne (List.append_eq_nil_iff.1 e).1, ⟨fun hm => ?_, fun hm => ?_⟩, ?_⟩
            · rcases List.mem_append.1 hm with hm | hm
              · exact hcc.noBreak.1 hm
              · exact hx.1 (List.mem_of_mem_drop hm)
            · rcases List.mem_append.1 hm with hm | hm
              · exact hcc.noBreak.2 hm
              · exact hx.2 (List.mem_of_mem_drop hm)
            · have := hcc.noIndent
              cases c with
              | nil => exact absurd rfl hcc.ne
              | cons y c => exact this
          · rename_i hf
            intro l hl
            have hl : l ∈ c :: (unfoldFrom (some (rstripNl x)) ls).items := hl
            rcases List.mem_cons.1 hl with rfl | hl
            · exact hcc
            · exact ih (fun c e => Option.some.inj e ▸ ⟨hne, hx, by simpa using hf⟩) hls l hl

theorem splitLines_noBreak (cur s : Str) (hc : NoBreak cur) : ∀ l ∈ splitLines cur s, NoBreak l := by
  have hr : ∀ cur : Str, NoBreak cur → NoBreak cur.reverse := fun cur h => noBreak_sub h fun _ => List.mem_reverse.1
  have h0 : NoBreak [] := ⟨nofun, nofun⟩
  fun_induction splitLines cur s with
  | case1 cur =>
    intro l hl
    rw [List.mem_singleton.1 hl]
    exact hr _ hc
  | case2 cur s ih | case3 cur s _ ih | case4 cur s ih =>
    intro l hl
    rcases List.mem_cons.1 hl with rfl | hl
    · exact hr _ hc
    · exact ih h0 l hl
  | case5 cur c s h1 h2 h3 ih =>
    refine ih ⟨fun hm => ?_, fun hm => ?_⟩
    · rcases List.mem_cons.1 hm with e | hm
      · exact h2 e.symm
      · exact hc.1 hm
    · rcases List.mem_cons.1 hm with e | hm
      · exact h3 e.symm
      · exact hc.2 hm

theorem unfold_good (txt : Str) : ∀ l ∈ (unfoldLines (stringToLines txt)).items, RawLine l :=
  unfoldFrom_good nofun (splitLines_noBreak [] txt ⟨nofun, nofun⟩)

theorem parseEach_good {err : Option PyErr} {ls : List Str} (h : ∀ l ∈ ls, RawLine l) :
    ∀ cl ∈ (parseEach err ls).items, ParsedLine cl := by
  induction ls with
  | nil =>
    intro cl hc
    exact absurd hc List.not_mem_nil
  | cons l ls ih =>
    intro cl hc
    unfold parseEach at hc
    cases hp : parseLine l with
    | error e =>
      rw [hp] at hc
      exact absurd hc List.not_mem_nil
    | ok x =>
      rw [hp] at hc
      have hc : cl ∈ x :: (parseEach err ls).items := hc
      rcases List.mem_cons.1 hc with rfl | hc
      · exact parseLine_good hp (h l List.mem_cons_self)
      · exact ih (fun l hl => h l (List.mem_cons_of_mem _ hl)) cl hc

/-! ### Containers -/

theorem writableTrees_append {a b : List Item} (ha : WritableTrees a) (hb : WritableTrees b) : WritableTrees (a ++ b) := by
  induction a with
  | nil => exact hb
  | cons i a ih =>
    rw [WritableTrees] at ha
    rw [List.cons_append, WritableTrees]
    exact ⟨ha.1, ih ha.2⟩

theorem writableTrees_singleton {i : Item} (h : WritableTree i) : WritableTrees [i] := by
  rw [WritableTrees, WritableTrees]
  exact ⟨h, trivial⟩

theorem parsed_writable {cl : ContentLine} (h : ParsedLine cl) (h1 : cl.name ≠ "BEGIN".toList) (h2 : cl.name ≠ "END".toList) :
    WritableTree (.line cl) := by
  rw [WritableTree]
  exact ⟨h.toWritableLine, h1, h2, h.nameBreak, h.pnameBreak, h.valueBreak, h.noIndent⟩

theorem toContainer_good {err : Option PyErr} {fuel : Nat} {name : Str} {acc : List Item} {ls rest : List ContentLine}
    {i : Item} (h : toContainer err fuel name acc ls = .ok (i, rest)) (hn : NoBreak name) (ha : WritableTrees acc)
    (hl : ∀ l ∈ ls, ParsedLine l) : WritableTree i ∧ ∀ l ∈ rest, ParsedLine l := by
  induction fuel generalizing name acc ls rest i with
  | zero => cases h
  | succ fuel ih =>
    cases ls with
    | nil => cases h
    | cons l ls =>
      have hls : ∀ l ∈ ls, ParsedLine l := fun x hx => hl x (List.mem_cons_of_mem _ hx)
      have hv : ParsedLine l := hl l List.mem_cons_self
      unfold toContainer at h
      split at h
      · split at h
        · cases h
        · rename_i j rest' hj
          obtain ⟨h1, h2⟩ := ih hj hv.valueBreak (by rw [WritableTrees]; trivial) hls
          exact ih h hn (writableTrees_append ha (writableTrees_singleton h1)) h2
      · rename_i hb
        split at h
        · split at h
          · cases h
          · unfold mkContainer at h
            split at h
            · cases h
            · rename_i j hj
              split at hj
              · cases hj
              · rename_i hne
                cases hj
                cases h
                rw [WritableTree]
                exact ⟨⟨⟨hne, upper_upper _, noBreak_upper hn⟩, ha⟩, hls⟩
        · rename_i he
          exact ih h hn (writableTrees_append ha (writableTrees_singleton (parsed_writable hv hb he))) hls

theorem toContainersF_good {err : Option PyErr} {fuel : Nat} {ls : List ContentLine} (hl : ∀ l ∈ ls, ParsedLine l)
    {i : Item} (h : i ∈ (toContainersF err fuel ls).items) (he : ∀ cl, i = .line cl → cl.name ≠ "END".toList) :
    WritableTree i := by
  induction fuel generalizing ls with
  | zero => cases ls <;> exact absurd h List.not_mem_nil
  | succ fuel ih =>
    cases ls with
    | nil => exact absurd h List.not_mem_nil
    | cons l ls =>
      have hls : ∀ l ∈ ls, ParsedLine l := fun x hx => hl x (List.mem_cons_of_mem _ hx)
      have hv : ParsedLine l := hl l List.mem_cons_self
      unfold toContainersF at h
      split at h
      · split at h
        · exact absurd h List.not_mem_nil
        · rename_i j rest hj
          obtain ⟨h1, h2⟩ := toContainer_good hj hv.valueBreak (by rw [WritableTrees]; trivial) hls
          have h : i ∈ j :: (toContainersF err fuel rest).items := h
          rcases List.mem_cons.1 h with rfl | h
          · exact h1
          · exact ih h2 h
      · rename_i hb
        have h : i ∈ .line l :: (toContainersF err fuel ls).items := h
        rcases List.mem_cons.1 h with rfl | h
        · exact parsed_writable hv hb (he l rfl)
        · exact ih hls h

/-- Every item of a text, except an END line outside of all containers, can be written. -/
theorem item_good {txt : Str} {i : Item} (h : i ∈ (stringToContainers txt).items)
    (he : ∀ cl, i = .line cl → cl.name ≠ "END".toList) : WritableTree i :=
  toContainersF_good (parseEach_good (unfold_good txt)) h he

theorem writableTrees_of {is : List Item} (h : ∀ i ∈ is, WritableTree i) : WritableTrees is := by
  induction is with
  | nil => rw [WritableTrees]; trivial
  | cons i is ih =>
    rw [WritableTrees]
    exact ⟨h i List.mem_cons_self, ih fun j hj => h j (List.mem_cons_of_mem _ hj)⟩

/-! ### What is written again -/

theorem filter_cr {s : Str} (h : '\r' ∉ s) : s.filter (· ≠ '\r') = s := by
  rw [List.filter_eq_self]
  intro c hc
  simp only [ne_eq, decide_not, Bool.not_eq_true', decide_eq_false_iff_not]
  rintro rfl
  exact h hc

theorem serPVal_norm {v : PVal} (h : '\r' ∉ v.text) : serPVal (normPVal v) = serPVal v := by
  unfold serPVal normPVal
  dsimp only
  rw [filter_cr h]
  cases v.quoted <;> cases needsQuote v.text <;> rfl

theorem serPVals_norm {vs : List PVal} (h : ∀ v ∈ vs, '\r' ∉ v.text) : serPVals (vs.map normPVal) = serPVals vs := by
  induction vs with
  | nil => rfl
  | cons v vs ih =>
    have hv := serPVal_norm (h v List.mem_cons_self)
    have ih := ih fun w hw => h w (List.mem_cons_of_mem _ hw)
    cases vs with
    | nil => exact hv
    | cons w vs =>
      show serPVal (normPVal v) ++ ',' :: serPVals ((w :: vs).map normPVal) = serPVal v ++ ',' :: serPVals (w :: vs)
      rw [hv, ih]

theorem serParams_norm {p : Params} (h : ∀ kv ∈ p, ∀ v ∈ kv.2, '\r' ∉ v.text) : serParams (normParams p) = serParams p := by
  induction p with
  | nil => rfl
  | cons kv p ih =>
    have ih := ih fun x hx => h x (List.mem_cons_of_mem _ hx)
    have e : normParams (kv :: p) = (kv.1, kv.2.map normPVal) :: normParams p := rfl
    rw [e]
    obtain ⟨k, vs⟩ := kv
    rw [serParams, serParams, serPVals_norm (h (k, vs) List.mem_cons_self), ih]

theorem serUnwrapped_norm {cl : ContentLine} (h : WritableLine cl) : serUnwrapped (normLine cl) = serUnwrapped cl := by
  unfold serUnwrapped normLine mkContentLine
  dsimp only
  rw [h.upperName, serParams_norm h.nocr]

mutual
theorem serItem_norm (w : Wrap) : ∀ i : Item, WritableTree i → serItem w (normItem i) = serItem w i
  | .line cl, h => by
    rw [WritableTree] at h
    rw [normItem, serItem, serItem]
    unfold serLine
    rw [serUnwrapped_norm h.toWritableLine]
  | .cont n is, h => by
    rw [WritableTree] at h
    rw [normItem, serItem, serItem, serItems_norm w is h.2]
theorem serItems_norm (w : Wrap) : ∀ is : List Item, WritableTrees is → serItems w (normItems is) = serItems w is
  | [], _ => rfl
  | i :: is, h => by
    rw [WritableTrees] at h
    rw [normItems, serItems, serItems, serItem_norm w i h.1, serItems_norm w is h.2]
end

end Ics
