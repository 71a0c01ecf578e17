import Verif.Spec.Writable
import Verif.Proofs.Text
import Verif.Proofs.Period
import Verif.Proofs.RtCal

/-
What is written for a writable component is a tree of content lines that can be written as text.
-/
namespace Ics

variable {σ : Type}

/-! ### Texts without line breaks -/

theorem noBreak_all (s : Str) : NoBreak s ↔ ∀ c ∈ s, c ≠ '\r' ∧ c ≠ '\n' :=
  ⟨fun h c hc => ⟨fun e => h.1 (e ▸ hc), fun e => h.2 (e ▸ hc)⟩,
    fun h => ⟨fun hc => (h _ hc).1 rfl, fun hc => (h _ hc).2 rfl⟩⟩

theorem noBreak_append {a b : Str} (ha : NoBreak a) (hb : NoBreak b) : NoBreak (a ++ b) := by
  rw [noBreak_all] at *
  intro c hc
  rcases List.mem_append.1 hc with h | h
  · exact ha c h
  · exact hb c h

theorem noBreak_cons {c : Char} {b : Str} (hc : c ≠ '\r' ∧ c ≠ '\n') (hb : NoBreak b) : NoBreak (c :: b) := by
  rw [noBreak_all] at *
  intro d hd
  rcases List.mem_cons.1 hd with h | h
  · exact h ▸ hc
  · exact hb d h

theorem noBreak_nil : NoBreak [] := ⟨by simp, by simp⟩

theorem noBreak_digits {s : Str} (h : ∀ c ∈ s, isDigit c = true) : NoBreak s := by
  rw [noBreak_all]
  intro c hc
  have := h c hc
  constructor <;> rintro rfl <;> exact absurd this (by decide)

theorem noBreak_escape (s : Str) : NoBreak (escapeText s) := by
  rw [noBreak_all]
  intro c hc
  simp only [escapeText, List.mem_flatMap] at hc
  obtain ⟨d, -, hc⟩ := hc
  unfold escapeTextChar at hc
  repeat' split at hc
  all_goals
    simp only [List.mem_cons, List.not_mem_nil, or_false] at hc
    first
      | (rcases hc with rfl | rfl <;> decide)
      | (subst hc; constructor <;> assumption)

theorem noBreak_natStr (n : Nat) : NoBreak (natStr n) := noBreak_digits natStr_digit

theorem noBreak_datetime (pad : Bool) (f : Fields) : NoBreak (datetimeStr pad f) := by
  rw [noBreak_all]
  intro c hc
  rcases datetimeStr_chars pad f c hc with h | rfl
  · constructor <;> rintro rfl <;> exact absurd h (by decide)
  · decide

theorem noBreak_date (pad : Bool) (f : Fields) : NoBreak (dateStr pad f) :=
  noBreak_append (noBreak_append (noBreak_digits (yearStr_isDigit _ _)) (noBreak_digits (pad2_isDigit _)))
    (noBreak_digits (pad2_isDigit _))

theorem noBreak_duration (us : Int) : NoBreak (durationSerialize us) := by
  have hu : ∀ (n : Nat) (c : Char), c ≠ '\r' ∧ c ≠ '\n' → NoBreak (natStr n ++ [c]) := fun n c hc =>
    noBreak_append (noBreak_natStr n) (noBreak_cons hc noBreak_nil)
  have ht : ∀ n, NoBreak (durationTime n) := by
    intro n
    unfold durationTime
    split
    · exact noBreak_nil
    · have hif : ∀ (P : Prop) [Decidable P] (n : Nat) (c : Char), c ≠ '\r' ∧ c ≠ '\n' →
          NoBreak (if P then natStr n ++ [c] else []) := by
        intro P _ n c hc
        split
        · exact hu n c hc
        · exact noBreak_nil
      exact noBreak_cons (by decide) (noBreak_append (noBreak_append (hif _ _ 'H' (by decide)) (hif _ _ 'M' (by decide)))
        (hif _ _ 'S' (by decide)))
  have hr : NoBreak ((if us.natAbs / 1000000 / 86400 ≠ 0 then natStr (us.natAbs / 1000000 / 86400) ++ ['D'] else []) ++
      durationTime (us.natAbs / 1000000 % 86400)) := by
    refine noBreak_append ?_ (ht _)
    split
    · exact hu _ _ (by decide)
    · exact noBreak_nil
  unfold durationSerialize
  dsimp only
  generalize (if us.natAbs / 1000000 / 86400 ≠ 0 then natStr (us.natAbs / 1000000 / 86400) ++ ['D'] else []) ++
      durationTime (us.natAbs / 1000000 % 86400) = r at hr ⊢
  have hr2 : NoBreak (if r = [] then "T0S".toList else r) := by
    split
    · exact ⟨by decide, by decide⟩
    · exact hr
  split
  · exact noBreak_cons (by decide) hr2
  · exact noBreak_cons (by decide) (noBreak_cons (by decide) hr2)

theorem noBreak_int {n : Int} {s : Str} (h : intSerialize n = .ok s) : NoBreak s := by
  unfold intSerialize at h
  dsimp only at h
  split at h
  · cases h
  · cases h
    split
    · exact noBreak_cons (by decide) (noBreak_natStr _)
    · exact noBreak_natStr _

theorem b64Char_plain (n : Nat) : b64Char n ≠ '\r' ∧ b64Char n ≠ '\n' := by
  by_cases h : n < 64
  · revert n
    decide
  · unfold b64Char
    rw [if_neg (by omega), if_neg (by omega), if_neg (by omega), if_neg (by omega)]
    decide

theorem noBreak_b64 (l : List (Fin 256)) : NoBreak (b64encode l) := by
  induction l using b64encode.induct with
  | case1 => exact noBreak_nil
  | case2 a =>
    exact noBreak_cons (b64Char_plain _) (noBreak_cons (b64Char_plain _) ⟨by decide, by decide⟩)
  | case3 a b =>
    exact noBreak_cons (b64Char_plain _) (noBreak_cons (b64Char_plain _) (noBreak_cons (b64Char_plain _) ⟨by decide, by decide⟩))
  | case4 a b c l ih =>
    exact noBreak_cons (b64Char_plain _) (noBreak_cons (b64Char_plain _) (noBreak_cons (b64Char_plain _)
      (noBreak_cons (b64Char_plain _) ih)))

theorem noBreak_joinComma {l : List Str} (h : ∀ s ∈ l, NoBreak s) : NoBreak (joinComma l) := by
  induction l using joinComma.induct with
  | case1 => exact noBreak_nil
  | case2 v => exact h v (by simp)
  | case3 v vs _ ih =>
    rw [joinComma]
    · exact noBreak_append (h v (by simp)) (noBreak_cons (by decide) (ih fun s hs => h s (List.mem_cons_of_mem _ hs)))
    · assumption

/-! ### Parameters -/

theorem writableParams_nil : WritableParams [] :=
  ⟨by simp, by simp, by simp, by simp⟩

theorem writableParams_set {p : Params} (h : WritableParams p) {k : Str} {v : List PVal}
    (hk : NoBreak k ∧ ∀ c ∈ k, c ≠ '=' ∧ c ≠ ':' ∧ c ≠ ';')
    (hv : ∃ init last, v = init ++ [last] ∧ (last.quoted = true ∨ last.text ≠ [])) (hr : ∀ x ∈ v, '\r' ∉ x.text) :
    WritableParams (dictSet p k v) := by
  refine ⟨fun kv hm => ?_, uniqueKeys_dictSet k v h.distinct, fun kv hm => ?_, fun kv hm => ?_⟩
  · rcases mem_dictSet hm with rfl | hm
    · exact hk
    · exact h.names kv hm
  · rcases mem_dictSet hm with rfl | hm
    · exact hv
    · exact h.vals kv hm
  · rcases mem_dictSet hm with rfl | hm
    · exact hr
    · exact h.nocr kv hm

theorem mem_of_erase {κ ν : Type} [DecidableEq κ] {d : List (κ × ν)} {k : κ} {x : κ × ν} (h : x ∈ dictErase d k) : x ∈ d := by
  induction d with
  | nil => exact h
  | cons a d ih =>
    obtain ⟨a, w⟩ := a
    unfold dictErase at h
    split at h
    · exact List.mem_cons_of_mem _ h
    · rcases List.mem_cons.1 h with e | h
      · exact e ▸ List.mem_cons_self
      · exact List.mem_cons_of_mem _ (ih h)

theorem writableParams_erase {p : Params} (h : WritableParams p) (k : Str) : WritableParams (dictErase p k) :=
  ⟨fun kv hm => h.names kv (mem_of_erase hm), uniqueKeys_dictErase k h.distinct, fun kv hm => h.vals kv (mem_of_erase hm),
    fun kv hm => h.nocr kv (mem_of_erase hm)⟩

theorem writableParams_update {p x : Params} (hp : WritableParams p) (hx : WritableParams x) :
    WritableParams (dictUpdate p x) := by
  induction x generalizing p with
  | nil => exact hp
  | cons kv x ih =>
    have hx' : WritableParams x :=
      ⟨fun a h => hx.names a (List.mem_cons_of_mem _ h), (List.nodup_cons.1 hx.distinct).2,
        fun a h => hx.vals a (List.mem_cons_of_mem _ h), fun a h => hx.nocr a (List.mem_cons_of_mem _ h)⟩
    exact ih (writableParams_set hp (hx.names kv List.mem_cons_self) (hx.vals kv List.mem_cons_self)
      (hx.nocr kv List.mem_cons_self)) hx'

theorem value_key : NoBreak "VALUE".toList ∧ ∀ c ∈ "VALUE".toList, c ≠ '=' ∧ c ≠ ':' ∧ c ≠ ';' :=
  ⟨⟨by decide, by decide⟩, by decide⟩

theorem tzid_key : NoBreak "TZID".toList ∧ ∀ c ∈ "TZID".toList, c ≠ '=' ∧ c ≠ ':' ∧ c ≠ ';' :=
  ⟨⟨by decide, by decide⟩, by decide⟩

theorem findConverter_writable {convs : List ValConv} {p q : Params} {v : Val σ} {c : ValConv}
    (h : findConverter convs p v = .ok (c, q)) (hp : WritableParams p) : WritableParams q := by
  unfold findConverter at h
  split at h
  · cases h
  split at h
  · cases h
    exact hp
  · cases h
    refine writableParams_set hp value_key ⟨[], _, rfl, .inr ?_⟩ ?_
    · cases c <;> decide
    · cases c <;> decide

/-! ### Values -/

theorem serializeDt_writable {L : Lib} {d : DT} {p q : Params} {ctx ctx' : Ctx} {t : Str}
    (h : serializeDt L.toWorld d p ctx = .ok (t, q, ctx')) (hd : WritableTime L d) (hp : WritableParams p) :
    NoBreak t ∧ WritableParams q := by
  unfold serializeDt at h
  split at h
  · cases h
    exact ⟨noBreak_append (noBreak_datetime _ _) ⟨by decide, by decide⟩, hp⟩
  split at h
  · cases h
    exact ⟨noBreak_datetime _ _, hp⟩
  · rename_i tz ht
    split at h
    · cases h
    · cases h
      exact ⟨noBreak_datetime _ _, hp⟩
    · rename_i z hz
      split at h
      · cases h
      · cases h
        obtain ⟨h1, h2⟩ := hd tz z ht hz
        refine ⟨noBreak_datetime _ _, writableParams_set hp tzid_key ⟨[], _, rfl, .inr h1⟩ ?_⟩
        intro x hx
        rw [List.mem_singleton] at hx
        subst hx
        exact h2

theorem serialize_writable {L : Lib} {M : σ → Prop} {c : ValConv} {v : Val σ} {p q : Params} {ctx ctx' : Ctx} {t : Str}
    (h : c.serialize L v p ctx = .ok (t, q, ctx')) (hv : WritableVal L M v) (hp : WritableParams p) :
    NoBreak t ∧ WritableParams q := by
  unfold ValConv.serialize at h
  split at h
  · cases h
    exact ⟨noBreak_escape _, hp⟩
  · cases h
    exact ⟨hv, hp⟩
  · cases h
    exact ⟨noBreak_b64 _, hp⟩
  · exact serializeDt_writable h hv hp
  · cases h
    exact ⟨noBreak_duration _, hp⟩
  · rename_i n
    cases hi : intSerialize n with
    | error e =>
      rw [hi] at h
      cases h
    | ok s =>
      rw [hi] at h
      cases h
      exact ⟨noBreak_int hi, hp⟩
  · rename_i b
    cases h
    refine ⟨?_, hp⟩
    cases b <;> exact ⟨by decide, by decide⟩
  · rename_i b
    cases h
    refine ⟨?_, hp⟩
    cases b <;> exact ⟨by decide, by decide⟩
  · cases h
    exact ⟨noBreak_append hv.1 (noBreak_cons (by decide) hv.2), hp⟩
  · rename_i e _
    cases h
    exact ⟨by cases e <;> exact hv.1, writableParams_update hp hv.2⟩
  · rename_i e _
    cases h
    exact ⟨by cases e <;> exact hv.1, writableParams_update hp hv.2⟩
  · cases h

/-! ### Lines -/

/-- What is required of the name of a line. -/
def nameOk (n : Str) : Bool :=
  decide (upper (upper n) = upper n ∧ (∀ c ∈ upper n, c ≠ ':' ∧ c ≠ ';') ∧ upper n ≠ "BEGIN".toList ∧
    upper n ≠ "END".toList ∧ (∀ c ∈ upper n, c ≠ '\r' ∧ c ≠ '\n') ∧ (upper n).head? ≠ some ' ' ∧ (upper n).head? ≠ some '\t')

theorem writable_line {n : Str} {p : Params} {t : Str} (hn : nameOk n = true) (hp : WritableParams p) (ht : NoBreak t) :
    WritableItemLine (mkContentLine n p t) := by
  obtain ⟨h1, h2, h3, h4, h5, h6⟩ := of_decide_eq_true hn
  exact
    { upperName := h1
      name := h2
      pnames := fun kv h => (hp.names kv h).2
      distinct := hp.distinct
      vals := hp.vals
      nocr := hp.nocr
      notBegin := h3
      notEnd := h4
      nameBreak := (noBreak_all _).2 h5
      pnameBreak := fun kv h => (hp.names kv h).1
      valueBreak := ht
      noIndent := h6 }

theorem writableTrees_append {a b : List Item} (ha : WritableTrees a) (hb : WritableTrees b) : WritableTrees (a ++ b) := by
  induction a with
  | nil => exact hb
  | cons i a ih =>
    rw [WritableTrees] at ha
    rw [List.cons_append, WritableTrees]
    exact ⟨ha.1, ih ha.2⟩

theorem writableTrees_one {cl : ContentLine} (h : WritableItemLine cl) : WritableTrees [.line cl] := by
  rw [WritableTrees, WritableTree, WritableTrees]
  exact ⟨h, trivial⟩

theorem writableTrees_nil : WritableTrees [] := by rw [WritableTrees]; trivial

theorem convs_nameOk (c : Cls) : ∀ cv ∈ c.convs, ∀ n ∈ cv.names, nameOk n = true := by
  cases c <;> decide +kernel

theorem extraParamsOf_writable {L : Lib} {M : σ → Prop} {o : Obj σ} (ho : WritableObj L M o) {n : Str} {p : Params}
    (h : o.extraParamsOf n = .ok p) : WritableParams p := by
  unfold Obj.extraParamsOf at h
  split at h
  · cases h
    exact writableParams_nil
  · rename_i q hq
    cases h
    exact ho.params _ _ hq
  · cases h
    exact writableParams_nil
  · cases h

theorem dumpSingle_writable {L : Lib} {M : σ → Prop} {o : Obj σ} (ho : WritableObj L M o) {s : AttrSpec}
    (hn : nameOk s.ics = true) {st st' : DState} {is : List Item} (h : dumpSingle L s o st = .ok (is, st')) :
    WritableTrees is := by
  unfold dumpSingle at h
  split at h
  · cases h
    exact writableTrees_nil
  · rename_i v hv
    simp only [bind_ok_iff] at h
    obtain ⟨p, h1, ⟨c, q⟩, h2, ⟨t, r, ctx⟩, h3, h⟩ := h
    cases h
    obtain ⟨ht, hr⟩ := serialize_writable h3 (ho.one _ _ hv) (findConverter_writable h2 (extraParamsOf_writable ho h1))
    exact writableTrees_one (writable_line hn hr ht)
  · cases h

theorem dumpMultiLoop_writable {L : Lib} {M : σ → Prop} {s : AttrSpec} (hn : nameOk s.ics = true)
    {l : List (Val σ × Params)} (hl : ∀ x ∈ l, WritableVal L M x.1 ∧ WritableParams x.2) {cur : Option Params}
    {ts : List Str} (hts : ∀ t ∈ ts, NoBreak t) {st st' : DState} {is : List Item}
    (h : dumpMultiLoop L s l cur ts st = .ok (is, st')) : WritableTrees is := by
  induction l generalizing cur ts st st' is with
  | nil =>
    simp only [dumpMultiLoop, bind_ok_iff] at h
    obtain ⟨_, _, h⟩ := h
    cases h
    exact writableTrees_nil
  | cons x l ih =>
    obtain ⟨v, p⟩ := x
    simp only [dumpMultiLoop, bind_ok_iff] at h
    obtain ⟨⟨c, q⟩, h1, ⟨t, r, ctx⟩, h2, _, _, h⟩ := h
    obtain ⟨hv, hp⟩ := hl (v, p) List.mem_cons_self
    have hl' : ∀ x ∈ l, WritableVal L M x.1 ∧ WritableParams x.2 := fun x hx => hl x (List.mem_cons_of_mem _ hx)
    obtain ⟨ht, hr⟩ := serialize_writable h2 hv (findConverter_writable h1 (writableParams_erase hp _))
    have hts' : ∀ u ∈ ts ++ [t], NoBreak u := by
      intro u hu
      rcases List.mem_append.1 hu with hu | hu
      · exact hts u hu
      · rw [List.mem_singleton.1 hu]
        exact ht
    split at h
    · exact ih hl' hts' h
    · simp only [bind_ok_iff] at h
      obtain ⟨⟨js, st2⟩, h3, h⟩ := h
      have := ih hl' (ts := []) (by simp) h3
      cases h
      rw [WritableTrees, WritableTree]
      exact ⟨writable_line hn hr (noBreak_joinComma hts'), this⟩

theorem zipParams_writable {L : Lib} {M : σ → Prop} {o : Obj σ} (ho : WritableObj L M o) {k : Str} {values : List (Val σ)}
    (hv : ∀ v ∈ values, WritableVal L M v) {l : List (Val σ × Params)}
    (h : zipParams values (dictGet? o.extraParams k) = .ok l) : ∀ x ∈ l, WritableVal L M x.1 ∧ WritableParams x.2 := by
  have hnil : ∀ x ∈ values.map (fun v => (v, ([] : Params))), WritableVal L M x.1 ∧ WritableParams x.2 := by
    intro x hx
    obtain ⟨v, hm, rfl⟩ := List.mem_map.1 hx
    exact ⟨hv v hm, writableParams_nil⟩
  unfold zipParams at h
  split at h
  · cases h
    exact hnil
  · rename_i ps hps
    split at h
    · cases h
      exact hnil
    · split at h
      · cases h
      · cases h
        intro x hx
        obtain ⟨a, b⟩ := x
        have := List.of_mem_zip hx
        exact ⟨hv _ this.1, ho.listParams _ _ hps _ this.2⟩
  · split at h
    · cases h
      exact hnil
    · split at h <;> cases h

theorem dumpMulti_writable {L : Lib} {M : σ → Prop} {o : Obj σ} (ho : WritableObj L M o) {s : AttrSpec}
    (hn : nameOk s.ics = true) {st st' : DState} {is : List Item} (h : dumpMulti L s o st = .ok (is, st')) :
    WritableTrees is := by
  unfold dumpMulti at h
  split at h
  · rename_i values hv
    simp only [bind_ok_iff] at h
    obtain ⟨l, h1, h⟩ := h
    exact dumpMultiLoop_writable hn (zipParams_writable ho (ho.many _ _ hv) h1) (by simp) h
  · cases h

theorem spanParams_writable {s : Span} {p : Params} (hp : WritableParams p) : WritableParams (spanParams s p) := by
  unfold spanParams
  split
  · exact writableParams_set hp value_key ⟨[], _, rfl, .inr (by decide)⟩ (by decide)
  · exact hp

theorem dumpSpanValue_writable {L : Lib} {s : Span} {d : DT} {p q : Params} {ctx ctx' : Ctx} {t : Str}
    (h : dumpSpanValue L s d p ctx = .ok (t, q, ctx')) (hd : WritableTime L d) (hp : WritableParams p) :
    NoBreak t ∧ WritableParams q := by
  unfold dumpSpanValue at h
  split at h
  · cases h
    exact ⟨noBreak_date _ _, hp⟩
  · exact serializeDt_writable h hd hp

theorem dumpSpan_writable {L : Lib} {M : σ → Prop} {o : Obj σ} (ho : WritableObj L M o)
    {st st' : DState} {is : List Item} (h : dumpSpan L o st = .ok (is, st')) : WritableTrees is := by
  unfold dumpSpan at h
  split at h
  · rename_i s hs
    obtain ⟨hb, he⟩ : (∀ d, s.begin? = some d → WritableTime L d) ∧ ∀ d, s.end? = some d → WritableTime L d :=
      ho.one _ _ hs
    simp only [bind_ok_iff] at h
    obtain ⟨⟨a, st1⟩, h1, ⟨b, st2⟩, h2, h⟩ := h
    cases h
    refine writableTrees_append ?_ ?_
    · unfold dumpSpanBegin at h1
      split at h1
      · cases h1
        exact writableTrees_nil
      · rename_i d hd
        split at h1
        · cases h1
        · simp only [bind_ok_iff] at h1
          obtain ⟨p, hp, ⟨t, q, ctx⟩, h3, h1⟩ := h1
          cases h1
          obtain ⟨ht, hq⟩ := dumpSpanValue_writable h3 (hb d hd) (spanParams_writable (extraParamsOf_writable ho hp))
          exact writableTrees_one (writable_line (by decide +kernel) hq ht)
    · unfold dumpSpanEnd at h2
      dsimp only at h2
      split at h2
      · simp only [bind_ok_iff] at h2
        obtain ⟨p, hp, h2⟩ := h2
        cases h2
        exact writableTrees_one (writable_line (by decide +kernel) (extraParamsOf_writable ho hp) (noBreak_duration _))
      · rename_i en hdur hend
        simp only [bind_ok_iff] at h2
        obtain ⟨p, hp, ⟨t, q, ctx⟩, h3, h2⟩ := h2
        cases h2
        obtain ⟨ht, hq⟩ := dumpSpanValue_writable h3 (he en hend) (spanParams_writable (extraParamsOf_writable ho hp))
        refine writableTrees_one (writable_line ?_ hq ht)
        cases s.cls <;> decide +kernel
      · cases h2
        exact writableTrees_nil
  · cases h

theorem dumpAction_writable {L : Lib} {M : σ → Prop} {o : Obj σ} (ho : WritableObj L M o)
    (ha : ∀ a, o.action = .one (.text a) → NoBreak a)
    {st st' : DState} {is : List Item} (h : dumpAction o st = .ok (is, st')) : WritableTrees is := by
  unfold dumpAction at h
  split at h
  · rename_i a h1 h2
    cases h
    exact writableTrees_one (writable_line (by decide +kernel) writableParams_nil (ha a h1))
  · rename_i a p h1 h2
    cases h
    exact writableTrees_one (writable_line (by decide +kernel) (ho.params _ _ h2) (ha a h1))
  · cases h

/-- Members that can be written give trees that can be written. -/
def DumpWritable (M : σ → Prop) (memd : MemberDump σ) : Prop :=
  ∀ m st i st', M m → memd m st = .ok (i, st') → WritableTree i

theorem dumpMembers_writable {L : Lib} {M : σ → Prop} {memd : MemberDump σ} (hm : DumpWritable M memd)
    {l : List (Val σ)} (hl : ∀ v ∈ l, WritableVal L M v) {st st' : DState} {is : List Item}
    (h : dumpMembers memd l st = .ok (is, st')) : WritableTrees is := by
  induction l generalizing st st' is with
  | nil =>
    cases h
    exact writableTrees_nil
  | cons v l ih =>
    cases v with
    | comp m =>
      simp only [dumpMembers, bind_ok_iff] at h
      obtain ⟨⟨i, st1⟩, h1, ⟨js, st2⟩, h2, h⟩ := h
      have := ih (fun v hv => hl v (List.mem_cons_of_mem _ hv)) h2
      cases h
      rw [WritableTrees]
      exact ⟨hm m _ _ _ (hl _ List.mem_cons_self) h1, this⟩
    | _ => cases h

theorem dumpConv_writable {L : Lib} {M : σ → Prop} {memd : MemberDump σ} (hm : DumpWritable M memd) {o : Obj σ}
    (ho : WritableObj L M o) {cv : Conv} (ha : cv = .alarmAction → ∀ a, o.action = .one (.text a) → NoBreak a)
    (hn : ∀ n ∈ cv.names, nameOk n = true) {st st' : DState} {is : List Item}
    (h : cv.dump L memd o st = .ok (is, st')) : WritableTrees is := by
  cases cv with
  | value s =>
    unfold Conv.dump at h
    dsimp only at h
    split at h
    · exact dumpMulti_writable ho (hn _ (by simp [Conv.names])) h
    · exact dumpSingle_writable ho (hn _ (by simp [Conv.names])) h
  | member a n =>
    unfold Conv.dump dumpMember at h
    simp only [bind_ok_iff] at h
    obtain ⟨_, _, h⟩ := h
    split at h
    · rename_i l hl
      exact dumpMembers_writable hm (ho.many _ _ hl) h
    · cases h
  | timespan => exact dumpSpan_writable ho h
  | alarmAction => exact dumpAction_writable ho (ha rfl) h
  | calendarTimezone =>
    cases h
    exact writableTrees_nil

theorem dumpConvs_writable {L : Lib} {M : σ → Prop} {memd : MemberDump σ} (hm : DumpWritable M memd) {o : Obj σ}
    (ho : WritableObj L M o) {cvs : List Conv} (ha : .alarmAction ∈ cvs → ∀ a, o.action = .one (.text a) → NoBreak a)
    (hn : ∀ cv ∈ cvs, ∀ n ∈ cv.names, nameOk n = true) {st st' : DState} {is : List Item}
    (h : dumpConvs L memd cvs o st = .ok (is, st')) : WritableTrees is := by
  induction cvs generalizing st st' is with
  | nil =>
    cases h
    exact writableTrees_nil
  | cons cv cvs ih =>
    simp only [dumpConvs, bind_ok_iff] at h
    obtain ⟨⟨a, st1⟩, h1, ⟨b, st2⟩, h2, h⟩ := h
    have hb := ih (fun hc => ha (List.mem_cons_of_mem _ hc)) (fun cv hc => hn cv (List.mem_cons_of_mem _ hc)) h2
    cases h
    exact writableTrees_append (dumpConv_writable hm ho (fun e => ha (e ▸ List.mem_cons_self)) (hn cv List.mem_cons_self) h1) hb

theorem dumpObj_writable {L : Lib} {M : σ → Prop} {memd : MemberDump σ} (hm : DumpWritable M memd) {o : Obj σ}
    (ho : WritableObj L M o) (ha : .alarmAction ∈ o.cls.convs → ∀ a, o.action = .one (.text a) → NoBreak a)
    {st st' : DState} {i : Item}
    (h : dumpObj L memd o st = .ok (i, st')) : WritableTree i := by
  simp only [dumpObj, bind_ok_iff] at h
  obtain ⟨⟨is, st1⟩, h1, h⟩ := h
  cases h
  rw [WritableTree]
  exact ⟨ho.name, writableTrees_append (dumpConvs_writable hm ho ha (convs_nameOk o.cls) h1) ho.extra⟩

theorem dumpAlarm_writable {L : Lib} : DumpWritable (WritableAlarm L) (dumpAlarm L) := by
  intro o st i st' ho h
  refine dumpObj_writable (M := fun _ => True) (fun m => nomatch m) ho.1 (fun _ a he => ?_) h
  unfold Obj.action at he
  split at he
  · cases he
    exact ⟨by decide, by decide⟩
  · cases he
    exact ⟨by decide, by decide⟩
  · cases he
    exact ⟨by decide, by decide⟩
  · cases he
    exact ⟨by decide, by decide⟩
  · exact ho.2 a he

theorem dumpEntry_writable {L : Lib} : DumpWritable (WritableEntry L) (dumpEntry L) := by
  intro o st i st' ho h
  refine dumpObj_writable dumpAlarm_writable ho.2 (fun h => ?_) h
  rcases ho.1 with e | e <;> rw [e] at h <;> exact absurd h (by decide)

theorem dumpZones_writable {L : Lib} {zs : List (Str × Nat)}
    (hz : ∀ n z, (n, z) ∈ zs → ∀ i, L.tzDump z = .ok i → WritableTree i)
    {is : List Item} (h : dumpZones L zs = .ok is) : WritableTrees is := by
  induction zs generalizing is with
  | nil =>
    cases h
    exact writableTrees_nil
  | cons x zs ih =>
    simp only [dumpZones, bind_ok_iff] at h
    obtain ⟨i, h1, js, h2, h⟩ := h
    cases h
    rw [WritableTrees]
    exact ⟨hz _ _ List.mem_cons_self _ h1, ih (fun n z hm => hz n z (List.mem_cons_of_mem _ hm)) h2⟩

theorem dumpCalendar_writable {L : Lib} (o : CalObj)
    (hz : ∀ a st b st', dumpConvs L (dumpEntry L) calConvsBefore o { ctx := some [] } = .ok (a, st) →
      dumpConvs L (dumpEntry L) calConvsAfter o st = .ok (b, st') →
      ∀ n z, (n, z) ∈ st'.ctx.getD [] → ∀ i, L.tzDump z = .ok i → WritableTree i)
    (ho : WritableCalendar L o) {i : Item} (h : dumpCalendar L o = .ok i) : WritableTree i := by
  simp only [dumpCalendar, bind_ok_iff] at h
  obtain ⟨⟨a, st1⟩, h1, ⟨b, st2⟩, h2, zs, h3, h⟩ := h
  cases h
  have hn : ∀ cv ∈ calConvsBefore, ∀ n ∈ cv.names, nameOk n = true := by decide +kernel
  have hn2 : ∀ cv ∈ calConvsAfter, ∀ n ∈ cv.names, nameOk n = true := by decide +kernel
  rw [WritableTree]
  refine ⟨ho.name, writableTrees_append (writableTrees_append ?_ (dumpZones_writable (hz _ _ _ _ h1 h2) h3))
    (writableTrees_append ?_ ho.extra)⟩
  · exact dumpConvs_writable dumpEntry_writable ho (fun h => absurd h (by decide)) hn h1
  · exact dumpConvs_writable dumpEntry_writable ho (fun h => absurd h (by decide)) hn2 h2

end Ics
