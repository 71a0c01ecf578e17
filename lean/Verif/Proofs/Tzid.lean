import Verif.Spec.Tzid
import Verif.Proofs.RtEntry

/-
The zones that are collected while a component is written.
-/
namespace Ics

variable {σ : Type}

theorem lineIn_nil {cl : ContentLine} : ¬LineIn cl [] := by
  intro h
  cases h with
  | here h => cases h
  | inside h _ => cases h

theorem lineIn_append {cl : ContentLine} {a b : List Item} : LineIn cl (a ++ b) ↔ LineIn cl a ∨ LineIn cl b := by
  constructor
  · intro h
    cases h with
    | here h => exact (List.mem_append.1 h).imp .here .here
    | inside h k => exact (List.mem_append.1 h).imp (.inside · k) (.inside · k)
  · rintro (h | h)
    · cases h with
      | here h => exact .here (List.mem_append_left _ h)
      | inside h k => exact .inside (List.mem_append_left _ h) k
    · cases h with
      | here h => exact .here (List.mem_append_right _ h)
      | inside h k => exact .inside (List.mem_append_right _ h) k

theorem lineIn_line {cl x : ContentLine} : LineIn cl [.line x] ↔ cl = x := by
  constructor
  · intro h
    cases h with
    | here h =>
      have := List.mem_singleton.1 h
      cases this
      rfl
    | inside h _ =>
      have := List.mem_singleton.1 h
      cases this
  · rintro rfl
    exact .here (List.mem_singleton.2 rfl)

theorem lineIn_cont {cl : ContentLine} {n : Str} {is : List Item} : LineIn cl [.cont n is] ↔ LineIn cl is := by
  constructor
  · intro h
    cases h with
    | here h =>
      have := List.mem_singleton.1 h
      cases this
    | inside h k =>
      have := List.mem_singleton.1 h
      cases this
      exact k
  · exact fun h => .inside (List.mem_singleton.2 rfl) h

/-- Writing something with the date-times `T`: zones are only added, with their names, and every zone
that is used has an entry. -/
structure Step (L : Lib) (T : DT → Prop) (a a' : List (Str × Nat)) : Prop where
  sub : SubDict a a'
  new : ∀ n z, dictGet? a' n = some z → dictGet? a n = some z ∨ (n = L.tzid z ∧ ∃ d, T d ∧ InZone L z d)
  uniq : UniqueKeys a → UniqueKeys a'
  used : ∀ d z, T d → InZone L z d → ∃ z', dictGet? a' (L.tzid z) = some z'

theorem Step.skip {L : Lib} {T : DT → Prop} (h : ∀ d z, T d → InZone L z d → False) (a : List (Str × Nat)) : Step L T a a :=
  ⟨.refl a, fun _ _ h => .inl h, id, fun d z ht hz => (h d z ht hz).elim⟩

theorem Step.trans {L : Lib} {S T : DT → Prop} {a b c : List (Str × Nat)} (h : Step L S a b) (k : Step L T b c) :
    Step L (fun d => S d ∨ T d) a c := by
  refine ⟨h.sub.trans k.sub, fun n z e => ?_, fun u => k.uniq (h.uniq u), fun d z ht hz => ?_⟩
  · rcases k.new n z e with e | ⟨e, d, ht, hz⟩
    · rcases h.new n z e with e | ⟨e, d, ht, hz⟩
      · exact .inl e
      · exact .inr ⟨e, d, .inl ht, hz⟩
    · exact .inr ⟨e, d, .inr ht, hz⟩
  · rcases ht with ht | ht
    · obtain ⟨z', e⟩ := h.used d z ht hz
      exact ⟨z', k.sub _ _ e⟩
    · exact k.used d z ht hz

theorem Step.congr {L : Lib} {S T : DT → Prop} {a b : List (Str × Nat)} (h : Step L S a b) (e : ∀ d, S d ↔ T d) :
    Step L T a b := by
  have : S = T := funext fun d => propext (e d)
  rwa [← this]

/-- Every TZID in these parameters is the name of a zone. -/
def TzParams (a : List (Str × Nat)) (p : Params) : Prop :=
  ∀ v, ("TZID".toList, v) ∈ p → ∃ x z, v = [x] ∧ dictGet? a x.text = some z

theorem NoTzid.tz {p : Params} (h : NoTzid p) (a : List (Str × Nat)) : TzParams a p :=
  fun _ hv => (h (List.mem_map.2 ⟨_, hv, rfl⟩)).elim

theorem TzParams.mono {a b : List (Str × Nat)} {p : Params} (h : TzParams a p) (k : SubDict a b) : TzParams b p := by
  intro v hv
  obtain ⟨x, z, e, hz⟩ := h v hv
  exact ⟨x, z, e, k _ _ hz⟩

/-- Every TZID in these items is the name of a zone. -/
def TzItems (a : List (Str × Nat)) (is : List Item) : Prop := ∀ cl, LineIn cl is → TzParams a cl.params

theorem TzItems.mono {a b : List (Str × Nat)} {is : List Item} (h : TzItems a is) (k : SubDict a b) : TzItems b is :=
  fun cl hc => (h cl hc).mono k

theorem TzItems.nil (a : List (Str × Nat)) : TzItems a [] := fun _ h => (lineIn_nil h).elim

theorem TzItems.append {a : List (Str × Nat)} {is js : List Item} (h : TzItems a is) (k : TzItems a js) :
    TzItems a (is ++ js) := fun cl hc => (lineIn_append.1 hc).elim (h cl) (k cl)

theorem TzItems.line {a : List (Str × Nat)} {cl : ContentLine} (h : TzParams a cl.params) : TzItems a [.line cl] := by
  intro c hc
  rw [lineIn_line.1 hc]
  exact h

theorem TzItems.cont {a : List (Str × Nat)} {n : Str} {is : List Item} (h : TzItems a is) : TzItems a [.cont n is] :=
  fun c hc => h c (lineIn_cont.1 hc)

/-- What writing some items gives: the zones after it, and TZIDs that all have a zone. -/
def Written (L : Lib) (T : DT → Prop) (a : List (Str × Nat)) (is : List Item) (st : DState) : Prop :=
  ∃ a', st.ctx = some a' ∧ Step L T a a' ∧ TzItems a' is

theorem isUtc_inZone {L : Lib} {d : DT} (h : L.dtIsUtc d = true) (z : Nat) : ¬InZone L z d := by
  rintro ⟨h1, t, h2, -⟩
  unfold Env.dtIsUtc at h
  cases t with
  | zone n =>
    rw [h2] at h
    have h : L.isUtc n = true := h
    rw [h1 n h2] at h
    cases h
  | _ =>
    rw [h2] at h
    cases h

theorem noTzid_set {p : Params} (h : NoTzid p) {k : Str} (hk : k ≠ "TZID".toList) (v : List PVal) :
    NoTzid (dictSet p k v) := by
  unfold NoTzid at *
  rw [← dictGet_eq_none] at h ⊢
  rw [dictGet_set_ne _ _ (Ne.symm hk)]
  exact h

theorem serializeDt_step {L : Lib} {d : DT} {p p' : Params} {a : List (Str × Nat)} {t : Str} {ctx : Ctx}
    (hp : NoTzid p) (h : serializeDt L.toWorld d p (some a) = .ok (t, p', ctx)) :
    ∃ a', ctx = some a' ∧ Step L (fun e => e = d) a a' ∧ TzParams a' p' := by
  unfold serializeDt at h
  split at h
  · rename_i hu
    cases h
    refine ⟨a, rfl, .skip ?_ a, hp.tz _⟩
    rintro _ z rfl hz
    exact isUtc_inZone hu z hz
  · rename_i hu
    split at h
    · rename_i ht
      cases h
      refine ⟨a, rfl, .skip ?_ a, hp.tz _⟩
      rintro _ z rfl ⟨-, t, e, -⟩
      rw [ht] at e
      cases e
    · rename_i tz ht
      split at h
      · cases h
      · rename_i hc
        cases h
        refine ⟨a, rfl, .skip ?_ a, hp.tz _⟩
        rintro _ z rfl ⟨-, t, e, e2⟩
        rw [ht] at e
        cases e
        rw [hc] at e2
        cases e2
      · rename_i z hc
        cases h
        have hz : InZone L z d := by
          refine ⟨fun n e => ?_, tz, ht, hc⟩
          unfold Env.dtIsUtc at hu
          rw [e] at hu
          simpa using hu
        refine ⟨_, rfl, ⟨?_, ?_, uniqueKeys_setDefault _ _, ?_⟩, ?_⟩
        · intro k v e
          rw [dictGet_setDefault]
          split
          · rename_i ek
            subst ek
            rw [e]
            rfl
          · exact e
        · intro n w e
          rw [dictGet_setDefault] at e
          split at e
          · rename_i ek
            subst ek
            cases hg : dictGet? a (L.tzid z) with
            | none =>
              rw [hg] at e
              cases e
              exact .inr ⟨rfl, d, rfl, hz⟩
            | some w' =>
              rw [hg] at e
              exact .inl e
          · exact .inl e
        · rintro _ w rfl ⟨-, t, e, e2⟩
          rw [ht] at e
          cases e
          rw [hc] at e2
          cases e2
          rw [dictGet_setDefault, if_pos rfl]
          exact ⟨_, rfl⟩
        · intro v hv
          rw [dictSet_new _ _ _ hp] at hv
          rcases List.mem_append.1 hv with hv | hv
          · exact (hp (List.mem_map.2 ⟨_, hv, rfl⟩)).elim
          · have := List.mem_singleton.1 hv
            cases this
            exact ⟨⟨false, L.tzid z⟩, _, rfl, by rw [dictGet_setDefault, if_pos rfl]⟩

theorem noTzid_update {p q : Params} (hp : NoTzid p) (hq : NoTzid q) : NoTzid (dictUpdate p q) := by
  induction q generalizing p with
  | nil => exact hp
  | cons x q ih =>
    unfold NoTzid at hq
    rw [List.map_cons, List.mem_cons, not_or] at hq
    exact ih (noTzid_set hp (Ne.symm hq.1) _) hq.2

theorem serialize_step {L : Lib} {c : ValConv} {v : Val σ} {p p' : Params} {a : List (Str × Nat)} {t : Str} {ctx : Ctx}
    (hp : NoTzid p) (hv : ∀ b e x, v = .person b e x → NoTzid x)
    (h : c.serialize L v p (some a) = .ok (t, p', ctx)) :
    ∃ a', ctx = some a' ∧ Step L (fun d => v = .dt d) a a' ∧ TzParams a' p' := by
  unfold ValConv.serialize at h
  split at h
  case h_4 d =>
    obtain ⟨a', h1, h2, h3⟩ := serializeDt_step hp h
    refine ⟨a', h1, h2.congr fun e => ?_, h3⟩
    constructor
    · rintro rfl
      rfl
    · intro e
      cases e
      rfl
  case h_6 n =>
    cases hi : intSerialize n with
    | error e => rw [hi] at h; cases h
    | ok s =>
      rw [hi] at h
      cases h
      exact ⟨a, rfl, .skip (fun d z e => nomatch e) a, hp.tz _⟩
  case h_10 =>
    cases h
    exact ⟨a, rfl, .skip (fun d z e => nomatch e) a, (noTzid_update hp (hv _ _ _ rfl)).tz _⟩
  case h_11 =>
    cases h
    exact ⟨a, rfl, .skip (fun d z e => nomatch e) a, (noTzid_update hp (hv _ _ _ rfl)).tz _⟩
  case h_12 => cases h
  all_goals
    cases h
    exact ⟨a, rfl, .skip (fun d z e => nomatch e) a, hp.tz _⟩

theorem findConverter_step {convs : List ValConv} {p p' : Params} {v : Val σ} {c : ValConv} (hp : NoTzid p)
    (h : findConverter convs p v = .ok (c, p')) : NoTzid p' := by
  unfold findConverter at h
  split at h
  · cases h
  · split at h
    · cases h
      exact hp
    · cases h
      exact noTzid_set hp (by decide) _

theorem extraParamsOf_step {o : Obj σ} (ho : ∀ k p, dictGet? o.extraParams k = some (.one p) → NoTzid p) {n : Str}
    {p : Params} (h : o.extraParamsOf n = .ok p) : NoTzid p := by
  unfold Obj.extraParamsOf at h
  split at h
  · cases h
    exact List.not_mem_nil
  · rename_i hp
    cases h
    exact ho _ _ hp
  · cases h
    exact List.not_mem_nil
  · cases h

theorem dumpSingle_step {L : Lib} {s : AttrSpec} {o : Obj σ}
    (ho : ∀ k p, dictGet? o.extraParams k = some (.one p) → NoTzid p)
    (hv : ∀ b e x, o.get s.attr = .one (.person b e x) → NoTzid x) {a : List (Str × Nat)} {st st' : DState} {is : List Item}
    (hst : st.ctx = some a) (h : dumpSingle L s o st = .ok (is, st')) :
    Written L (fun d => o.get s.attr = .one (.dt d)) a is st' := by
  unfold dumpSingle at h
  split at h
  · rename_i hg
    cases h
    refine ⟨a, hst, .skip (fun d z e => ?_) a, .nil _⟩
    rw [hg] at e
    cases e
  · rename_i v hg
    simp only [bind_ok_iff] at h
    obtain ⟨p, hp, ⟨c, q⟩, hc, ⟨t, r, ctx⟩, hs, h⟩ := h
    dsimp only at hs
    rw [hst] at hs
    obtain ⟨a', h1, h2, h3⟩ := serialize_step (findConverter_step (extraParamsOf_step ho hp) hc)
      (fun b e x hb => hv b e x (by rw [hg, hb])) hs
    cases h
    refine ⟨a', h1, h2.congr fun d => ?_, .line h3⟩
    rw [hg]
    constructor
    · rintro rfl
      rfl
    · intro e
      cases e
      rfl
  · cases h

theorem noTzid_erase {p : Params} (h : NoTzid p) (k : Str) : NoTzid (dictErase p k) := by
  intro hm
  apply h
  clear h
  induction p with
  | nil => exact hm
  | cons x p ih =>
    obtain ⟨x, w⟩ := x
    rw [dictErase] at hm
    rw [List.map_cons, List.mem_cons]
    split at hm
    · exact .inr hm
    · rw [List.map_cons, List.mem_cons] at hm
      exact hm.imp id ih

theorem dumpMultiLoop_step {L : Lib} {s : AttrSpec} {l : List (Val σ × Params)} {cur : Option Params} {ts : List Str}
    (hp : ∀ x ∈ l, NoTzid x.2) (hv : ∀ b e x q, (.person b e x, q) ∈ l → NoTzid x) {a : List (Str × Nat)}
    {st st' : DState} {is : List Item} (hst : st.ctx = some a)
    (h : dumpMultiLoop L s l cur ts st = .ok (is, st')) :
    Written L (fun d => ∃ q, (.dt d, q) ∈ l) a is st' := by
  induction l generalizing cur ts st st' is a with
  | nil =>
    simp only [dumpMultiLoop, bind_ok_iff] at h
    obtain ⟨_, _, h⟩ := h
    cases h
    refine ⟨a, hst, .skip ?_ a, .nil _⟩
    rintro d z ⟨q, hq⟩
    cases hq
  | cons x l ih =>
    obtain ⟨v, p⟩ := x
    simp only [dumpMultiLoop, bind_ok_iff] at h
    obtain ⟨⟨c, q⟩, hc, ⟨t, r, ctx⟩, hs, _, _, h⟩ := h
    dsimp only at hs
    rw [hst] at hs
    obtain ⟨a', h1, h2, h3⟩ := serialize_step
      (findConverter_step (noTzid_erase (hp _ (List.mem_cons_self ..)) _) hc)
      (fun b e x hb => hv b e x p (by rw [hb]; exact List.mem_cons_self ..)) hs
    have key : ∀ d, (v = .dt d ∨ ∃ q, (.dt d, q) ∈ l) ↔ ∃ q, (.dt d, q) ∈ (v, p) :: l := by
      intro d
      constructor
      · rintro (rfl | ⟨q, hq⟩)
        · exact ⟨p, List.mem_cons_self ..⟩
        · exact ⟨q, List.mem_cons_of_mem _ hq⟩
      · rintro ⟨q, hq⟩
        rcases List.mem_cons.1 hq with e | hq
        · cases e
          exact .inl rfl
        · exact .inr ⟨q, hq⟩
    have hp' : ∀ x ∈ l, NoTzid x.2 := fun x hx => hp x (List.mem_cons_of_mem _ hx)
    have hv' : ∀ b e x q, (Val.person b e x, q) ∈ l → NoTzid x := fun b e x q hx => hv b e x q (List.mem_cons_of_mem _ hx)
    split at h
    · obtain ⟨b, g1, g2, g3⟩ := ih hp' hv' (st := { st with ctx := ctx }) h1 h
      exact ⟨b, g1, (h2.trans g2).congr key, g3⟩
    · simp only [bind_ok_iff] at h
      obtain ⟨⟨js, st2⟩, hl, h⟩ := h
      obtain ⟨b, g1, g2, g3⟩ := ih hp' hv' (st := { st with ctx := ctx }) h1 hl
      cases h
      refine ⟨b, g1, (h2.trans g2).congr key, ?_⟩
      exact TzItems.append (is := [_]) (.line (h3.mono g2.sub)) g3

theorem dumpMulti_step {L : Lib} {s : AttrSpec} {o : Obj σ}
    (ho : ∀ k ps, dictGet? o.extraParams k = some (.many ps) → ∀ p ∈ ps, NoTzid p)
    (hv : ∀ l, o.get s.attr = .many l → ∀ b e x, .person b e x ∈ l → NoTzid x) {a : List (Str × Nat)}
    {st st' : DState} {is : List Item} (hst : st.ctx = some a) (h : dumpMulti L s o st = .ok (is, st')) :
    Written L (fun d => ∃ l, o.get s.attr = .many l ∧ .dt d ∈ l) a is st' := by
  unfold dumpMulti at h
  split at h
  · rename_i vs hg
    simp only [bind_ok_iff] at h
    obtain ⟨l, hl, h⟩ := h
    have key : (∀ x ∈ l, NoTzid x.2) ∧ l.map Prod.fst = vs := by
      unfold zipParams at hl
      have hn : (∀ x ∈ vs.map (fun v => (v, ([] : Params))), NoTzid x.2) ∧ (vs.map fun v => (v, ([] : Params))).map Prod.fst = vs := by
        constructor
        · intro x hx
          obtain ⟨v, _, rfl⟩ := List.mem_map.1 hx
          exact List.not_mem_nil
        · rw [List.map_map]
          exact List.map_id _
      split at hl
      · cases hl
        exact hn
      · rename_i ps hps
        split at hl
        · cases hl
          exact hn
        · split at hl
          · cases hl
          · rename_i hlen
            cases hl
            refine ⟨fun x hx => ho _ _ hps _ (List.of_mem_zip hx).2, ?_⟩
            rw [List.map_fst_zip]
            omega
      · split at hl
        · cases hl
          exact hn
        · split at hl
          · cases hl
          · cases hl
    obtain ⟨k1, k2⟩ := key
    have k3 : ∀ v, (∃ q, (v, q) ∈ l) ↔ v ∈ vs := by
      intro v
      rw [← k2, List.mem_map]
      constructor
      · rintro ⟨q, hq⟩
        exact ⟨_, hq, rfl⟩
      · rintro ⟨⟨v', q⟩, hq, rfl⟩
        exact ⟨q, hq⟩
    obtain ⟨b, g1, g2, g3⟩ := dumpMultiLoop_step k1 (fun b e x q hq => hv vs hg b e x ((k3 _).1 ⟨q, hq⟩)) hst h
    refine ⟨b, g1, g2.congr fun d => ?_, g3⟩
    rw [k3, hg]
    constructor
    · exact fun h => ⟨vs, rfl, h⟩
    · rintro ⟨l', e, h⟩
      cases e
      exact h
  · cases h

/-- The date-times of a time span that are written. -/
def SpanTime (s : Span) (d : DT) : Prop := s.prec ≠ .day ∧ (s.begin? = some d ∨ s.dur? = none ∧ s.end? = some d)

theorem dumpSpanValue_step {L : Lib} {s : Span} {d : DT} {p p' : Params} {a : List (Str × Nat)} {t : Str} {ctx : Ctx}
    (hp : NoTzid p) (h : dumpSpanValue L s d (spanParams s p) (some a) = .ok (t, p', ctx)) :
    ∃ a', ctx = some a' ∧ Step L (fun e => s.prec ≠ .day ∧ e = d) a a' ∧ TzParams a' p' := by
  have hp' : NoTzid (spanParams s p) := by
    unfold spanParams
    split
    · exact noTzid_set hp (by decide) _
    · exact hp
  unfold dumpSpanValue at h
  split at h
  · rename_i hd
    cases h
    refine ⟨a, rfl, .skip (fun e z he => (he.1 (of_decide_eq_true hd)).elim) a, hp'.tz _⟩
  · rename_i hd
    obtain ⟨a', h1, h2, h3⟩ := serializeDt_step hp' h
    refine ⟨a', h1, h2.congr fun e => ?_, h3⟩
    have : s.prec ≠ .day := fun e => hd (decide_eq_true e)
    exact ⟨fun h => ⟨this, h⟩, fun h => h.2⟩

theorem dumpSpan_step {L : Lib} {o : Obj σ} (ho : ∀ k p, dictGet? o.extraParams k = some (.one p) → NoTzid p)
    {a : List (Str × Nat)} {st st' : DState} {is : List Item} (hst : st.ctx = some a)
    (h : dumpSpan L o st = .ok (is, st')) :
    Written L (fun d => ∃ s, o.get "timespan".toList = .one (.span s) ∧ SpanTime s d) a is st' := by
  unfold dumpSpan at h
  split at h
  · rename_i s hg
    simp only [bind_ok_iff] at h
    obtain ⟨⟨x, st1⟩, hx, ⟨y, st2⟩, hy, h⟩ := h
    dsimp only at hy
    have e := Except.ok.inj h
    obtain ⟨b, b1, b2, b3⟩ : Written L (fun d => s.prec ≠ .day ∧ s.begin? = some d) a x st1 := by
      unfold dumpSpanBegin at hx
      split at hx
      · rename_i hb
        cases hx
        refine ⟨a, hst, .skip (fun d z e => ?_) a, .nil _⟩
        rw [hb] at e
        cases e.2
      · rename_i d hb
        split at hx
        · cases hx
        · simp only [bind_ok_iff] at hx
          obtain ⟨p, hp, ⟨t, q, ctx⟩, hs, hx⟩ := hx
          rw [hst] at hs
          obtain ⟨a', h1, h2, h3⟩ := dumpSpanValue_step (extraParamsOf_step ho hp) hs
          cases hx
          refine ⟨a', h1, h2.congr fun e => ?_, .line h3⟩
          rw [hb]
          exact and_congr Iff.rfl ⟨fun h => by rw [h], fun h => (Option.some.inj h).symm⟩
    obtain ⟨c, c1, c2, c3⟩ : Written L (fun d => s.prec ≠ .day ∧ s.dur? = none ∧ s.end? = some d) b y st2 := by
      unfold dumpSpanEnd at hy
      split at hy
      · rename_i d _ hd
        simp only [bind_ok_iff] at hy
        obtain ⟨p, hp, hy⟩ := hy
        cases hy
        refine ⟨b, b1, .skip (fun d z e => ?_) b, .line ((extraParamsOf_step ho hp).tz _)⟩
        rw [hd] at e
        cases e.2.1
      · rename_i d hd hend
        simp only [bind_ok_iff] at hy
        obtain ⟨p, hp, ⟨t, q, ctx⟩, hs, hy⟩ := hy
        rw [b1] at hs
        obtain ⟨a', h1, h2, h3⟩ := dumpSpanValue_step (extraParamsOf_step ho hp) hs
        cases hy
        refine ⟨a', h1, h2.congr fun e => ?_, .line h3⟩
        rw [hend, hd]
        exact and_congr Iff.rfl ⟨fun h => by rw [h]; exact ⟨rfl, rfl⟩, fun h => (Option.some.inj h.2).symm⟩
      · rename_i hend
        cases hy
        refine ⟨b, b1, .skip (fun d z e => ?_) b, .nil _⟩
        rw [hend] at e
        cases e.2.2
    obtain rfl : x ++ y = is := congrArg Prod.fst e
    obtain rfl : st2 = st' := congrArg Prod.snd e
    refine ⟨c, c1, (b2.trans c2).congr fun d => ?_, (b3.mono c2.sub).append c3⟩
    constructor
    · rintro (⟨h1, h2⟩ | ⟨h1, h2⟩)
      · exact ⟨s, hg, h1, .inl h2⟩
      · exact ⟨s, hg, h1, .inr h2⟩
    · rintro ⟨s', e, h1, h2⟩
      rw [hg] at e
      cases e
      exact h2.imp (fun h => ⟨h1, h⟩) (fun h => ⟨h1, h⟩)
  · cases h

theorem dumpAction_step {L : Lib} {o : Obj σ} (ho : ∀ k p, dictGet? o.extraParams k = some (.one p) → NoTzid p)
    {a : List (Str × Nat)} {st st' : DState} {is : List Item} (hst : st.ctx = some a)
    (h : dumpAction o st = .ok (is, st')) : Written L (fun _ => False) a is st' := by
  unfold dumpAction at h
  split at h
  · cases h
    exact ⟨a, hst, .skip (fun _ _ h => h.elim) a, .line (NoTzid.tz (p := []) List.not_mem_nil _)⟩
  · rename_i hp
    cases h
    exact ⟨a, hst, .skip (fun _ _ h => h.elim) a, .line ((ho _ _ hp).tz _)⟩
  · cases h

/-- A way to write members that keeps track of zones. -/
def MemStep (L : Lib) (memd : MemberDump σ) (P : σ → Prop) (M : σ → DT → Prop) : Prop :=
  ∀ m, P m → ∀ a st st' i, st.ctx = some a → memd m st = .ok (i, st') → Written L (M m) a [i] st'

theorem dumpMembers_step {L : Lib} {memd : MemberDump σ} {P : σ → Prop} {M : σ → DT → Prop} (hm : MemStep L memd P M)
    {l : List (Val σ)} (hl : ∀ m, .comp m ∈ l → P m) {a : List (Str × Nat)} {st st' : DState} {is : List Item}
    (hst : st.ctx = some a) (h : dumpMembers memd l st = .ok (is, st')) :
    Written L (fun d => ∃ m, .comp m ∈ l ∧ M m d) a is st' := by
  induction l generalizing a st st' is with
  | nil =>
    cases h
    refine ⟨a, hst, .skip ?_ a, .nil _⟩
    rintro d z ⟨m, hm, _⟩
    cases hm
  | cons v l ih =>
    cases v with
    | comp m =>
      simp only [dumpMembers, bind_ok_iff] at h
      obtain ⟨⟨i, st1⟩, hi, ⟨js, st2⟩, hj, h⟩ := h
      obtain ⟨b, b1, b2, b3⟩ := hm m (hl m (List.mem_cons_self ..)) a st st1 i hst hi
      obtain ⟨c, c1, c2, c3⟩ := ih (fun m hm => hl m (List.mem_cons_of_mem _ hm)) b1 hj
      cases h
      refine ⟨c, c1, (b2.trans c2).congr fun d => ?_, TzItems.append (is := [i]) (b3.mono c2.sub) c3⟩
      constructor
      · rintro (h | ⟨m', h1, h2⟩)
        · exact ⟨m, List.mem_cons_self .., h⟩
        · exact ⟨m', List.mem_cons_of_mem _ h1, h2⟩
      · rintro ⟨m', h1, h2⟩
        rcases List.mem_cons.1 h1 with e | h1
        · cases e
          exact .inl h2
        · exact .inr ⟨m', h1, h2⟩
    | _ => cases h

/-- The date-times that a converter writes. -/
def ConvTime (M : σ → DT → Prop) (o : Obj σ) (cv : Conv) (d : DT) : Prop :=
  match cv with
  | .value s => if s.multi then ∃ l, o.get s.attr = .many l ∧ .dt d ∈ l else o.get s.attr = .one (.dt d)
  | .member a _ => ∃ l, o.get a = .many l ∧ ∃ m, .comp m ∈ l ∧ M m d
  | .timespan => ∃ s, o.get "timespan".toList = .one (.span s) ∧ SpanTime s d
  | _ => False

/-- The attribute of a converter is among those of the class. -/
def Conv.known (c : Cls) : Conv → Bool
  | .value s => if s.multi then ((listAttrs c).map String.toList).contains s.attr
      else ((oneAttrs c).map String.toList).contains s.attr
  | .member a _ => ((memberAttrs c).map String.toList).contains a
  | .timespan => decide (c = .event ∨ c = .todo)
  | _ => true

theorem convs_known (c : Cls) : ∀ cv ∈ c.convs, cv.known c = true := by
  cases c <;> decide +kernel

theorem known_list {l : List String} {a : Str} (h : (l.map String.toList).contains a = true) :
    ∃ k ∈ l, a = k.toList := by
  rw [List.contains_iff_mem] at h
  obtain ⟨k, hk, e⟩ := List.mem_map.1 h
  exact ⟨k, hk, e.symm⟩

/-- Every attribute has its converter. -/
theorem known_convs (c : Cls) :
    (∀ k ∈ oneAttrs c, ∃ s, .value s ∈ c.convs ∧ s.attr = k.toList ∧ s.multi = false) ∧
    (∀ k ∈ listAttrs c, ∃ s, .value s ∈ c.convs ∧ s.attr = k.toList ∧ s.multi = true) ∧
    (∀ k ∈ memberAttrs c, ∃ n, .member k.toList n ∈ c.convs) ∧
    (c = .event ∨ c = .todo → .timespan ∈ c.convs) := by
  have h : ∀ k ∈ oneAttrs c, c.convs.any (fun cv => match cv with
      | .value s => decide (s.attr = k.toList ∧ s.multi = false) | _ => false) = true := by
    cases c <;> decide +kernel
  have h2 : ∀ k ∈ listAttrs c, c.convs.any (fun cv => match cv with
      | .value s => decide (s.attr = k.toList ∧ s.multi = true) | _ => false) = true := by
    cases c <;> decide +kernel
  have h3 : ∀ k ∈ memberAttrs c, c.convs.any (fun cv => match cv with
      | .member a _ => decide (a = k.toList) | _ => false) = true := by
    cases c <;> decide +kernel
  refine ⟨fun k hk => ?_, fun k hk => ?_, fun k hk => ?_, ?_⟩
  · obtain ⟨cv, hcv, e⟩ := List.any_eq_true.1 (h k hk)
    cases cv with
    | value s => exact ⟨s, hcv, of_decide_eq_true e⟩
    | _ => cases e
  · obtain ⟨cv, hcv, e⟩ := List.any_eq_true.1 (h2 k hk)
    cases cv with
    | value s => exact ⟨s, hcv, of_decide_eq_true e⟩
    | _ => cases e
  · obtain ⟨cv, hcv, e⟩ := List.any_eq_true.1 (h3 k hk)
    cases cv with
    | member a n =>
      have e : a = k.toList := of_decide_eq_true e
      subst e
      exact ⟨n, hcv⟩
    | _ => cases e
  · rintro (rfl | rfl) <;> decide +kernel

theorem timeOf_iff (M : σ → DT → Prop) (o : Obj σ) (d : DT) :
    (∃ cv ∈ o.cls.convs, ConvTime M o cv d) ↔ TimeOf M o d := by
  constructor
  · rintro ⟨cv, hcv, h⟩
    have hk := convs_known o.cls cv hcv
    cases cv with
    | value s =>
      unfold ConvTime at h
      unfold Conv.known at hk
      dsimp only at h hk
      cases hm : s.multi with
      | true =>
        rw [hm, if_pos rfl] at h hk
        obtain ⟨l, h1, h2⟩ := h
        obtain ⟨k, hk, e⟩ := known_list hk
        rw [e] at h1
        exact .list k l hk h1 h2
      | false =>
        rw [hm, if_neg (by decide)] at h hk
        obtain ⟨k, hk, e⟩ := known_list hk
        rw [e] at h
        exact .single k hk h
    | member a n =>
      obtain ⟨l, h1, m, h2, h3⟩ := h
      obtain ⟨k, hk', e⟩ := known_list hk
      subst e
      exact .member k l m hk' h1 h2 h3
    | timespan =>
      obtain ⟨s, h1, h2, h3⟩ := h
      have hk := of_decide_eq_true hk
      rcases h3 with h3 | ⟨h3, h4⟩
      · exact .begin s hk h1 h2 h3
      · exact .end_ s hk h1 h2 h3 h4
    | alarmAction => exact h.elim
    | calendarTimezone => exact h.elim
  · obtain ⟨k1, k2, k3, k4⟩ := known_convs o.cls
    intro h
    cases h with
    | single k hk h =>
      obtain ⟨s, hs, e, hm⟩ := k1 k hk
      refine ⟨_, hs, ?_⟩
      unfold ConvTime
      dsimp only
      rw [hm, if_neg (by decide), e]
      exact h
    | list k l hk h1 h2 =>
      obtain ⟨s, hs, e, hm⟩ := k2 k hk
      refine ⟨_, hs, ?_⟩
      unfold ConvTime
      dsimp only
      rw [hm, if_pos rfl, e]
      exact ⟨l, h1, h2⟩
    | begin s hc h1 h2 h3 => exact ⟨_, k4 hc, s, h1, h2, .inl h3⟩
    | end_ s hc h1 h2 h3 h4 => exact ⟨_, k4 hc, s, h1, h2, .inr ⟨h3, h4⟩⟩
    | member k l m hk h1 h2 h3 =>
      obtain ⟨n, hn⟩ := k3 k hk
      exact ⟨_, hn, l, h1, m, h2, h3⟩

theorem dump_step {L : Lib} {memd : MemberDump σ} {P : σ → Prop} {M : σ → DT → Prop} (hm : MemStep L memd P M)
    {o : Obj σ} (ho : OnlyTimesTzid P o) {cv : Conv} (hcv : cv ∈ o.cls.convs) {a : List (Str × Nat)}
    {st st' : DState} {is : List Item} (hst : st.ctx = some a) (h : cv.dump L memd o st = .ok (is, st')) :
    Written L (ConvTime M o cv) a is st' := by
  have hk := convs_known o.cls cv hcv
  cases cv with
  | value s =>
    unfold Conv.dump at h
    unfold ConvTime
    unfold Conv.known at hk
    dsimp only at h hk ⊢
    cases hm : s.multi with
    | true =>
      rw [hm, if_pos rfl] at h hk
      obtain ⟨k, hk, e⟩ := known_list hk
      simp only [if_pos]
      exact dumpMulti_step ho.many (fun l hl => ho.persons k hk l (by rw [← e]; exact hl)) hst h
    | false =>
      rw [hm, if_neg (by decide)] at h hk
      obtain ⟨k, hk, e⟩ := known_list hk
      simp only [Bool.false_eq_true, if_false]
      exact dumpSingle_step ho.one (fun b em x hx => ho.person k hk b em x (by rw [← e]; exact hx)) hst h
  | member n ics =>
    obtain ⟨k, hk, e⟩ := known_list hk
    have h : dumpMember memd n o st = .ok (is, st') := h
    simp only [dumpMember, bind_ok_iff] at h
    obtain ⟨_, _, h⟩ := h
    split at h
    · rename_i l hl
      obtain ⟨b, b1, b2, b3⟩ := dumpMembers_step hm (fun m hm => ho.member k hk l (by rw [← e]; exact hl) m hm) hst h
      refine ⟨b, b1, b2.congr fun d => ?_, b3⟩
      show _ ↔ ∃ l, o.get n = .many l ∧ ∃ m, .comp m ∈ l ∧ M m d
      rw [hl]
      constructor
      · exact fun h => ⟨l, rfl, h⟩
      · rintro ⟨l', e, h⟩
        cases e
        exact h
    · cases h
  | timespan => exact dumpSpan_step ho.one hst h
  | alarmAction => exact dumpAction_step ho.one hst h
  | calendarTimezone =>
    cases h
    exact ⟨a, hst, .skip (fun _ _ h => h.elim) a, .nil _⟩

theorem dumpConvs_step {L : Lib} {memd : MemberDump σ} {P : σ → Prop} {M : σ → DT → Prop} (hm : MemStep L memd P M)
    {o : Obj σ} (ho : OnlyTimesTzid P o) {cvs : List Conv} (hcvs : ∀ cv ∈ cvs, cv ∈ o.cls.convs) {a : List (Str × Nat)}
    {st st' : DState} {is : List Item} (hst : st.ctx = some a) (h : dumpConvs L memd cvs o st = .ok (is, st')) :
    Written L (fun d => ∃ cv ∈ cvs, ConvTime M o cv d) a is st' := by
  induction cvs generalizing a st st' is with
  | nil =>
    cases h
    refine ⟨a, hst, .skip ?_ a, .nil _⟩
    rintro d z ⟨cv, hcv, _⟩
    cases hcv
  | cons cv cvs ih =>
    simp only [dumpConvs, bind_ok_iff] at h
    obtain ⟨⟨x, st1⟩, hx, ⟨y, st2⟩, hy, h⟩ := h
    obtain ⟨b, b1, b2, b3⟩ := dump_step hm ho (hcvs _ (List.mem_cons_self ..)) hst hx
    obtain ⟨c, c1, c2, c3⟩ := ih (fun cv hcv => hcvs cv (List.mem_cons_of_mem _ hcv)) b1 hy
    cases h
    refine ⟨c, c1, (b2.trans c2).congr fun d => ?_, (b3.mono c2.sub).append c3⟩
    constructor
    · rintro (h | ⟨cv', h1, h2⟩)
      · exact ⟨cv, List.mem_cons_self .., h⟩
      · exact ⟨cv', List.mem_cons_of_mem _ h1, h2⟩
    · rintro ⟨cv', h1, h2⟩
      rcases List.mem_cons.1 h1 with e | h1
      · subst e
        exact .inl h2
      · exact .inr ⟨cv', h1, h2⟩

theorem dumpObj_step {L : Lib} {memd : MemberDump σ} {P : σ → Prop} {M : σ → DT → Prop} (hm : MemStep L memd P M) :
    MemStep L (dumpObj L memd) (OnlyTimesTzid P) (TimeOf M) := by
  intro o ho a st st' i hst h
  simp only [dumpObj, bind_ok_iff] at h
  obtain ⟨⟨is, st1⟩, hd, h⟩ := h
  obtain ⟨b, b1, b2, b3⟩ := dumpConvs_step hm ho (fun _ h => h) hst hd
  cases h
  refine ⟨b, ?_, b2.congr (timeOf_iff M o), .cont (b3.append fun cl hc => (ho.extra cl hc).tz _)⟩
  unfold postDump
  split
  · exact b1
  · exact b1

theorem dumpAlarm_step (L : Lib) : MemStep L (dumpAlarm L) AlarmTzid AlarmTime :=
  dumpObj_step (fun m => nomatch m)

theorem dumpEntry_step (L : Lib) : MemStep L (dumpEntry L) EntryTzid EntryTime := dumpObj_step (dumpAlarm_step L)

/-- What is known about the zones that a calendar is written with. -/
structure ZonesOf (L : Lib) (T : DT → Prop) (used : List (Str × Nat)) : Prop where
  uniq : UniqueKeys used
  name : ∀ n z, (n, z) ∈ used → n = L.tzid z ∧ ∃ d, T d ∧ InZone L z d
  used : ∀ d z, T d → InZone L z d → ∃ z', (L.tzid z, z') ∈ used

theorem dumpCalendar_step {L : Lib} {o : CalObj} (hc : o.cls = .calendar) (ho : CalendarTzid o) {i : Item}
    (h : dumpCalendar L o = .ok i) :
    ∃ (a zs b : List Item) (used : List (Str × Nat)) (st st' : DState),
      i = .cont o.extraName (a ++ zs ++ (b ++ o.extra)) ∧
      dumpConvs L (dumpEntry L) calConvsBefore o { ctx := some [] } = .ok (a, st) ∧
      dumpConvs L (dumpEntry L) calConvsAfter o st = .ok (b, st') ∧ st'.ctx = some used ∧
      dumpZones L used = .ok zs ∧ ZonesOf L (CalendarTime o) used ∧ TzItems used (a ++ (b ++ o.extra)) := by
  simp only [dumpCalendar, bind_ok_iff] at h
  obtain ⟨⟨a, st⟩, ha, ⟨b, st'⟩, hb, zs, hz, h⟩ := h
  dsimp only at hb hz
  have sub1 : ∀ cv ∈ calConvsBefore, cv ∈ o.cls.convs := by
    rw [hc]
    exact fun cv h => (List.takeWhile_sublist _).subset h
  have sub2 : ∀ cv ∈ calConvsAfter, cv ∈ o.cls.convs := by
    rw [hc]
    exact fun cv h => (List.dropWhile_sublist _).subset h
  obtain ⟨u, u1, u2, u3⟩ := dumpConvs_step (dumpEntry_step L) ho sub1 rfl ha
  obtain ⟨w, w1, w2, w3⟩ := dumpConvs_step (dumpEntry_step L) ho sub2 u1 hb
  rw [w1] at hz
  have hT := (u2.trans w2).congr (T := CalendarTime o) fun d => by
    show _ ↔ TimeOf EntryTime o d
    rw [← timeOf_iff]
    have hcv : o.cls.convs = calConvsBefore ++ calConvsAfter := by
      rw [hc]
      exact (List.takeWhile_append_dropWhile).symm
    rw [hcv]
    constructor
    · rintro (⟨cv, h1, h2⟩ | ⟨cv, h1, h2⟩)
      · exact ⟨cv, List.mem_append_left _ h1, h2⟩
      · exact ⟨cv, List.mem_append_right _ h1, h2⟩
    · rintro ⟨cv, h1, h2⟩
      exact (List.mem_append.1 h1).imp (fun h => ⟨cv, h, h2⟩) (fun h => ⟨cv, h, h2⟩)
  have hu := hT.uniq uniqueKeys_nil
  refine ⟨a, zs, b, w, st, st', (Except.ok.inj h).symm, ha, hb, w1, hz, ⟨hu, fun n z hm => ?_, fun d z ht hz => ?_⟩, ?_⟩
  · rcases hT.new n z (dictGet_of_mem hu hm) with e | e
    · cases e
    · exact e
  · obtain ⟨z', e⟩ := hT.used d z ht hz
    exact ⟨z', mem_of_dictGet e⟩
  · exact (u3.mono w2.sub).append (w3.append fun cl hc => (ho.extra cl hc).tz _)

end Ics
