import Verif.Proofs.Survive
import Verif.Proofs.Values
import Verif.Proofs.Dump
import Verif.Proofs.RtConv
import Verif.Proofs.Timezone

namespace Ics

variable {σ : Type}

/-- A time that is converted to UTC on reading and then is the same as before was the same already. -/
theorem utc_unconverted {L : Lib} (hU : UtcOk L) {zones : List (Str × Nat)} {d d1 d2 : DT} {t : Str} {p p' : Params}
    {ctx0 ctx ctx' : Ctx} (h1 : serializeDt L.toWorld d [] ctx0 = .ok (t, p, ctx))
    (h2 : parseDt L.toWorld datetimeFormats t p (some zones) = .ok (d1, p', ctx'))
    (ha : L.astimezone d1 (.zone L.icsUtc) = .ok d2) (hs : SameTime L d d2) : SameTime L d d1 := by
  have htz : d2.tz = some (.zone L.icsUtc) := by
    unfold Env.astimezone at ha
    split at ha
    · rename_i h; cases ha; exact h
    · dsimp only at ha
      split at ha
      · cases ha
      · split at ha
        · cases ha; rfl
        · cases ha
  obtain ⟨s1, s2, s3⟩ := hs
  obtain ⟨m, hm, hu⟩ : ∃ m, d.tz = some (.zone m) ∧ L.isUtc m = true := by
    rcases s3 with h | ⟨m, n, h, _, hm, _⟩
    · exact ⟨_, h.trans htz, hU.ics⟩
    · exact ⟨m, h, hm⟩
  have hd : L.toWorld.dtIsUtc d = true := by unfold Env.dtIsUtc; rw [hm]; exact hu
  simp only [serializeDt, hd, if_true] at h1
  cases h1
  obtain ⟨tz', last, w, p1, p2, p3, ⟨f, p4, p5⟩, p6⟩ := (parseDt_iff _ _ _ _ _ _).1 h2
  have hl : last = 'Z' := by simpa using p2.symm
  rcases p6 with ⟨_, _, h⟩ | ⟨h, _⟩ | ⟨h, _⟩
  · cases h
    have hw := (wallOf_good p5).2
    have hk : mkWall w = .ok w := if_pos hw
    by_cases he : L.utc = L.icsUtc
    · unfold Env.astimezone at ha
      rw [if_pos (by rw [he])] at ha
      cases ha
      exact ⟨s1, s2, s3⟩
    · unfold Env.astimezone at ha
      rw [if_neg (by simpa using he)] at ha
      dsimp only [Env.tzOff, Env.tzFromUtc] at ha
      rw [hU.off _ _ _ hU.utc, Int.sub_zero, hk] at ha
      dsimp only at ha
      rw [hU.fromUtc] at ha
      dsimp only at ha
      rw [hk] at ha
      cases ha
      exact ⟨s1, s2, .inr ⟨m, L.utc, hm, rfl, hu, hU.utc⟩⟩
  · exact absurd (.inl hl) h
  · exact absurd (.inl hl) h

/-- What assigning does to a value: nothing, except for the status, which is a text, and for times in UTC. -/
theorem check_back {L : Lib} {ch : Check} {v w : Val σ} (h : ch.run L (.one v) = .ok (.one w)) :
    w = v ∨ (∃ s, v = .text s) ∨ ∃ d d', v = .dt d ∧ w = .dt d' ∧ L.astimezone d (.zone L.icsUtc) = .ok d' := by
  have dt : ∀ d, ((L.astimezone d (.zone L.icsUtc)).map fun d => (.one (.dt d) : AttrVal σ)) = .ok (.one w) →
      ∃ d', w = .dt d' ∧ L.astimezone d (.zone L.icsUtc) = .ok d' := by
    intro d h
    obtain ⟨x, hx, e⟩ := map_ok_iff.1 h
    cases e
    exact ⟨x, rfl, hx⟩
  cases v with
  | text s => exact .inr (.inl ⟨s, rfl⟩)
  | dt d =>
    cases ch <;> simp only [Check.run] at h <;> first
      | (cases h <;> exact .inl rfl)
      | (obtain ⟨d', e, h⟩ := dt d h; exact .inr (.inr ⟨d, d', rfl, e, h⟩))
      | cases h
  | int n =>
    left
    cases ch <;> simp only [Check.run] at h <;> first
      | (cases h <;> rfl)
      | (split at h <;> cases h; rfl)
      | cases h
  | person att e x =>
    left
    cases att <;> cases ch <;> simp only [Check.run] at h <;> first
      | (cases h <;> rfl)
      | cases h
  | span s =>
    left
    cases ch <;> simp only [Check.run] at h <;> first
      | (cases h <;> rfl)
      | (obtain ⟨x, hx, e⟩ := map_ok_iff.1 h; cases e; rfl)
      | cases h
  | _ =>
    left
    cases ch <;> simp only [Check.run] at h <;> first
      | (cases h <;> rfl)
      | cases h

/-- Assigning a value other than `None` does not give `None`, except for coordinates. -/
theorem check_none {L : Lib} {ch : Check} {v : Val σ} (h : ch.run L (.one v) = .ok .none) : ch = .geo := by
  cases ch <;> cases v <;> simp only [Check.run] at h <;> first
    | rfl
    | cases h
    | (split at h <;> cases h)
    | (rename_i att _ _; cases att <;> cases h)
    | (obtain ⟨x, hx, e⟩ := map_ok_iff.1 h; cases e)

theorem parse_text_only {L : Lib} {c : ValConv} {t s : Str} {p p' : Params} {ctx ctx' : Ctx}
    (h : c.parse L t p ctx = .ok ((.text s : Val σ), p', ctx')) : c = .text := by
  cases c
  case text => rfl
  case geo =>
    simp only [ValConv.parse] at h
    obtain ⟨x, hx, e⟩ := map_ok_iff.1 h
    unfold geoParse at hx
    split at hx
    · cases hx
    · split at hx
      · cases hx; cases e
      · cases hx
  all_goals
    simp only [ValConv.parse] at h
    obtain ⟨x, hx, e⟩ := map_ok_iff.1 h
    cases e

theorem parse_dt_only {L : Lib} {c : ValConv} {t : Str} {d : DT} {p p' : Params} {ctx ctx' : Ctx}
    (h : c.parse L t p ctx = .ok ((.dt d : Val σ), p', ctx')) :
    c = .datetime ∧ parseDt L.toWorld datetimeFormats t p ctx = .ok (d, p', ctx') := by
  cases c
  case datetime =>
    refine ⟨rfl, ?_⟩
    simp only [ValConv.parse] at h
    obtain ⟨⟨x, y, z⟩, hx, e⟩ := map_ok_iff.1 h
    cases e
    exact hx
  case geo =>
    simp only [ValConv.parse] at h
    obtain ⟨x, hx, e⟩ := map_ok_iff.1 h
    unfold geoParse at hx
    split at hx
    · cases hx
    · split at hx
      · cases hx; cases e
      · cases hx
  all_goals
    simp only [ValConv.parse] at h
    obtain ⟨x, hx, e⟩ := map_ok_iff.1 h
    cases e

theorem parse_person_only {L : Lib} {c : ValConv} {t : Str} {att : Bool} {m : Email} {extra p p' : Params} {ctx ctx' : Ctx}
    (h : c.parse L t p ctx = .ok ((.person att m extra : Val σ), p', ctx')) : extra = p := by
  cases c
  case geo =>
    simp only [ValConv.parse] at h
    obtain ⟨x, hx, e⟩ := map_ok_iff.1 h
    unfold geoParse at hx
    split at hx
    · cases hx
    · split at hx
      · cases hx; cases e
      · cases hx
  case organizer =>
    simp only [ValConv.parse] at h
    obtain ⟨x, hx, e⟩ := map_ok_iff.1 h
    cases e; rfl
  case attendee =>
    simp only [ValConv.parse] at h
    obtain ⟨x, hx, e⟩ := map_ok_iff.1 h
    cases e; rfl
  all_goals
    simp only [ValConv.parse] at h
    obtain ⟨x, hx, e⟩ := map_ok_iff.1 h
    cases e

/-- Writing with the parameter VALUE is writing without it. -/
theorem serialize_value {L : Lib} {c : ValConv} (hc : c.isPerson = false) {v : Val σ} {x : List PVal} {t : Str}
    {p : Params} {ctx ctx' : Ctx} (h : c.serialize L v [("VALUE".toList, x)] ctx = .ok (t, p, ctx')) :
    ∃ q, c.serialize L v [] ctx = .ok (t, q, ctx') ∧ p = ("VALUE".toList, x) :: q := by
  unfold ValConv.serialize at h ⊢
  split at h
  case h_4 d =>
    unfold serializeDt at h ⊢
    repeat' split at h
    all_goals cases h
    · rw [if_pos (by assumption)]; exact ⟨_, rfl, rfl⟩
    · rename_i h1 _ h2; rw [if_neg h1]; exact ⟨_, rfl, rfl⟩
    · rename_i h1 _ _ h2 _ h3; rw [if_neg h1]; exact ⟨_, rfl, rfl⟩
    · rename_i h1 _ _ h2 _ _ h3 _ _; rw [if_neg h1]; exact ⟨_, rfl, by simp [dictSet]⟩
  case h_6 =>
    obtain ⟨y, hy, e⟩ := map_ok_iff.1 h
    cases e
    rw [hy]
    exact ⟨_, rfl, rfl⟩
  case h_10 => cases hc
  case h_11 => cases hc
  case h_12 => cases h
  all_goals
    cases h
    exact ⟨_, rfl, rfl⟩

/-- Without parameters of its own, a value other than a person is written without VALUE. -/
theorem serialize_plain {L : Lib} {c : ValConv} (hc : c.isPerson = false) {v : Val σ} {t : Str} {p : Params} {ctx ctx' : Ctx}
    (h : c.serialize L v [] ctx = .ok (t, p, ctx')) : dictGet? p "VALUE".toList = none :=
  (serialize_params hc h).2 _ (by decide)

theorem serialize_person {L : Lib} {c : ValConv} (hc : c.isPerson = true) {v : Val σ} {t : Str} {q p : Params} {ctx ctx' : Ctx}
    (h : c.serialize L v q ctx = .ok (t, p, ctx')) :
    ∃ att e extra, v = .person att e extra ∧ t = e.str? ∧ p = dictUpdate q extra ∧ ctx' = ctx := by
  cases c <;> first | cases hc | skip
  all_goals
    cases v <;> simp only [ValConv.serialize] at h <;> cases h
    exact ⟨_, _, _, rfl, rfl, rfl, rfl⟩

theorem person_head (c : Cls) : ∀ cv ∈ c.convs, ∀ s, cv = .value s → ∀ x ∈ s.convs, x.isPerson = true → s.convs = [x] := by
  have : (c.convs.all fun cv => match cv with
      | .value s => s.convs.all fun x => !x.isPerson || decide (s.convs = [x])
      | _ => true) = true := by
    cases c <;> decide +kernel
  intro cv hcv s e x hx hp
  have h := List.all_eq_true.1 this cv hcv
  rw [e] at h
  have h := List.all_eq_true.1 h x hx
  rw [hp] at h
  exact of_decide_eq_true h

theorem required_check (c : Cls) : ∀ cv ∈ c.convs, ∀ s, cv = .value s →
    s.attr ∈ ["uid", "dtstamp", "version", "prodid"].map String.toList → s.check ≠ .geo := by
  have : (c.convs.all fun cv => match cv with
      | .value s => !decide (s.attr ∈ ["uid", "dtstamp", "version", "prodid"].map String.toList) || decide (s.check ≠ .geo)
      | _ => true) = true := by
    cases c <;> decide +kernel
  intro cv hcv s e h1
  have h := List.all_eq_true.1 this cv hcv
  rw [e] at h
  have h : (!decide (s.attr ∈ ["uid", "dtstamp", "version", "prodid"].map String.toList) || decide (s.check ≠ .geo)) = true := h
  rw [decide_eq_true h1] at h
  exact of_decide_eq_true h

theorem single_listed (c : Cls) : ∀ s, .value s ∈ c.convs → ∃ k ∈ allAttrs c, k.toList = s.attr := by
  have : (c.convs.all fun cv => match cv with
      | .value s => (allAttrs c).any fun k => decide (k.toList = s.attr)
      | _ => true) = true := by
    cases c <;> decide +kernel
  intro s hs
  have h := List.all_eq_true.1 this _ hs
  obtain ⟨k, hk, e⟩ := List.any_eq_true.1 h
  exact ⟨k, hk, of_decide_eq_true e⟩

/-- Reading the parameters that were written. -/
theorem prepare_back {L : Lib} {convs : List ValConv} (hp : ∀ x ∈ convs, x.isPerson = true → convs = [x])
    {v : Val σ} {c : ValConv} {p0 : Params} (hf : findConverter convs [] v = .ok (c, p0)) {t : Str} {p : Params}
    {ctx ctx' : Ctx} (hs : c.serialize L v p0 ctx = .ok (t, p, ctx')) (hv : PyVal v) {p1 : Params} {cv : ValConv}
    (hr : prepareParams convs p = .ok (p1, cv)) :
    convs.find? (fun c => c.accepts v) = some c ∧
    ((∃ att e extra, v = .person att e extra ∧ "VALUE".toList ∈ extra.map Prod.fst ∧ p1 = dictErase extra "VALUE".toList) ∨
      (cv = c ∧ (∀ att e extra, v = .person att e extra → "VALUE".toList ∉ extra.map Prod.fst) ∧
        c.serialize L v [] ctx = .ok (t, p1, ctx'))) := by
  unfold findConverter at hf
  split at hf
  · cases hf
  · rename_i c' hc'
    have hmem := List.mem_of_find?_eq_some hc'
    have hacc := List.find?_some hc'
    have plain : ∀ {p : Params}, dictGet? p "VALUE".toList = none → prepareParams convs p = .ok (p1, cv) → convs.head? = some cv ∧ p1 = p := by
      intro p hn hr
      unfold prepareParams at hr
      rw [hn] at hr
      dsimp only at hr
      split at hr
      · cases hr
        exact ⟨rfl, dictErase_absent _ _ hn⟩
      · cases hr
    split at hf
    · rename_i hh
      cases hf
      refine ⟨hc', ?_⟩
      by_cases hper : c.isPerson = true
      · obtain ⟨att, e, extra, rfl, rfl, rfl, rfl⟩ := serialize_person hper hs
        have hv : (extra.map Prod.fst).Nodup := hv
        rw [update_extra hv] at hr hs
        by_cases hk : "VALUE".toList ∈ extra.map Prod.fst
        · left
          refine ⟨_, _, _, rfl, hk, ?_⟩
          unfold prepareParams at hr
          dsimp only at hr
          split at hr
          · obtain ⟨x, hx, e⟩ := map_ok_iff.1 hr
            cases e; rfl
          · cases hr
          · split at hr
            · cases hr; rfl
            · cases hr
        · right
          obtain ⟨h1, rfl⟩ := plain (dictGet_eq_none.2 hk) hr
          rw [hh] at h1
          cases h1
          refine ⟨rfl, fun att' e' x' he => ?_, hs⟩
          cases he; exact hk
      · right
        have hper : c.isPerson = false := by simpa using hper
        obtain ⟨h1, rfl⟩ := plain (serialize_plain hper hs) hr
        rw [hh] at h1
        cases h1
        refine ⟨rfl, fun att' e' x' he => ?_, hs⟩
        subst he
        cases c <;> first | (cases hper; done) | (cases hacc; done)
    · rename_i hh
      cases hf
      refine ⟨hc', .inr ?_⟩
      have hper : c.isPerson = false := by
        cases hq : c.isPerson with
        | false => rfl
        | true => rw [hp c hmem hq] at hh; exact absurd rfl hh
      obtain ⟨q, hq, rfl⟩ := serialize_value hper hs
      unfold prepareParams at hr
      simp only [dictGet?, if_true, dictErase] at hr
      obtain ⟨x, hx, e⟩ := map_ok_iff.1 hr
      cases e
      unfold findByType at hx
      split at hx
      · rename_i y hy
        cases hx
        have := List.find?_some hy
        have := icsType_inj (of_decide_eq_true this)
        subst this
        refine ⟨rfl, fun att' e' x' he => ?_, hq⟩
        subst he
        cases cv <;> first | (cases hper; done) | (cases hacc; done)
      · cases hx

/-- What each converter writes is among the items, in order. -/
def Wrote (L : Lib) (memd : MemberDump σ) (o : Obj σ) (items : List Item) : Prop :=
  ∀ cv ∈ o.cls.convs, ∃ part st st', cv.dump L memd o st = .ok (part, st') ∧ List.Sublist part items

theorem wrote_obj {L : Lib} {memd : MemberDump σ} {o : Obj σ} {st st' : DState} {n : Str} {items : List Item}
    (h1 : dumpObj L memd o st = .ok (.cont n items, st')) : Wrote L memd o items := by
  intro cv hs
  simp only [dumpObj, bind_ok_iff] at h1
  obtain ⟨⟨is, st1⟩, h1, e⟩ := h1
  cases e
  obtain ⟨parts, rfl, hf⟩ := dumpConvs_parts h1
  obtain ⟨part, hpart, st2, st3, hd⟩ := forall₂_mem hf.flip _ hs
  exact ⟨part, st2, st3, hd, (List.sublist_flatten_of_mem hpart).trans (List.sublist_append_left _ _)⟩

/-- What is needed so that a single-valued attribute survives. -/
theorem single_wrote {L : Lib} (hU : UtcOk L) (hF : ∀ x, ';' ∉ L.formatFloat x) {mem : MemberLoad σ}
    {memd : MemberDump σ} (hmem : MemStable L mem) {R : σ → σ → Prop} {o o' : Obj σ}
    {items : List Item} {zones : List (Str × Nat)} {ctx1 : Ctx} (hw0 : Wrote L memd o items)
    (h2 : loadObj L mem o.cls items (some zones) = .ok (o', ctx1)) {s : AttrSpec} (hs : .value s ∈ o.cls.convs)
    (hm : s.multi = false) (hp : dictGet? o.extraParams (upper s.attr) = none)
    (hv : ∀ v, o.get s.attr = .one v → PyVal v) (hR : SameAttr L R (o.get s.attr) (o'.get s.attr)) :
    KeptSingle L zones o s := by
  have hup : upper s.ics = s.ics := names_upper _ _ hs _ (List.mem_singleton_self _)
  obtain ⟨part, st2, st3, hd, hpart⟩ := hw0 _ hs
  simp only [Conv.dump, hm, Bool.false_eq_true, if_false] at hd
  have hl := load_single hmem rfl h2 hs hm
  unfold KeptSingle
  unfold dumpSingle at hd
  have hget : ∀ w, dictGet? o'.attrs s.attr = some w → o'.get s.attr = w := fun w h => by unfold Obj.get; rw [h]; rfl
  cases hg : o.get s.attr with
  | none =>
    dsimp only
    intro hin
    rw [hg] at hR
    have hnone : o'.get s.attr = .none := by
      generalize o'.get s.attr = w at hR
      cases hR
      rfl
    rcases hl with ⟨_, h3, _⟩ | ⟨cl, p, cv, v, p', ctx', w, _, _, _, hw, h3, _⟩
    · rw [hget _ h3] at hnone
      simp only [List.map_cons, List.map_nil, List.mem_cons, List.not_mem_nil, or_false] at hin
      unfold defaultAttr at hnone
      rcases hin with h | h | h | h <;> rw [h] at hnone <;> revert hnone <;> simp <;> decide
    · rw [hget _ h3] at hnone
      subst hnone
      exact required_check _ _ hs s rfl hin (check_none hw)
  | many l => rw [hg] at hd; cases hd
  | one v =>
    dsimp only
    rw [hg] at hd
    simp only [bind_ok_iff] at hd
    obtain ⟨p0, hp0, ⟨c, p⟩, hfc, ⟨t, q, ctx⟩, hser, e⟩ := hd
    cases e
    have hp0 : p0 = [] := by
      unfold Obj.extraParamsOf at hp0
      rw [show dictGet? o.extraParams (extraKey s.attr) = none from hp] at hp0
      cases hp0; rfl
    subst hp0
    have hown : .line (mkContentLine s.ics q t) ∈ Conv.own (.value s) items := by
      unfold Conv.own
      rw [List.mem_filter]
      refine ⟨hpart.subset (List.mem_singleton_self _), ?_⟩
      show decide (upper s.ics ∈ [s.ics]) = true
      rw [hup]
      simp
    rcases hl with ⟨h3, _⟩ | ⟨cl, p1, cv, v1, p', ctx', w, h3, hprep, hparse, hw, h4, _⟩
    · rw [h3] at hown; cases hown
    · rw [h3] at hown
      have hcl : cl = mkContentLine s.ics q t := by
        have := List.mem_singleton.1 hown
        injection this with this
        exact this.symm
      subst hcl
      obtain ⟨hfind, hcase⟩ := prepare_back (person_head _ _ hs s rfl) hfc hser (hv v hg) hprep
      have hacc := List.find?_some hfind
      rw [hg, hget _ h4] at hR
      obtain ⟨v2, rfl, hsame⟩ : ∃ v2, w = .one v2 ∧ SameVal L R v v2 := by cases hR with | one h => exact ⟨_, rfl, h⟩
      refine ⟨c, hfind, ?_⟩
      rcases hcase with ⟨att, e, extra, rfl, hk, rfl⟩ | ⟨rfl, hk, hser'⟩
      · exfalso
        obtain rfl : v2 = .person att e extra := by cases hsame; rfl
        rcases check_back hw with h | ⟨s', h⟩ | ⟨d, d', h, h', _⟩
        · subst h
          have := parse_person_only hparse
          have hl := congrArg List.length this
          cases hx : dictGet? extra "VALUE".toList with
          | none => exact dictGet_eq_none.1 hx hk
          | some x =>
            have := dictErase_length hx
            omega
        · subst h
          have := parse_text_only hparse
          subst this
          cases hw' : s.check <;> rw [hw'] at hw <;> simp only [Check.run] at hw <;> first
            | cases hw
            | (split at hw <;> cases hw)
        · cases h'
      · refine ⟨?_, hk⟩
        rcases check_back hw with h | ⟨s', h⟩ | ⟨d, d', h, h', ha⟩
        · subst h
          exact kept_of hF hacc (hv v hg) hser' hparse hsame
        · subst h
          have := parse_text_only hparse
          subst this
          cases v <;> first | exact .text _ | cases hacc
        · subst h h'
          obtain ⟨rfl, hparse'⟩ := parse_dt_only hparse
          cases v with
          | dt d0 =>
            refine kept_of (R := R) hF hacc (hv _ hg) hser' hparse (.dt (utc_unconverted hU hser' hparse' ha ?_))
            cases hsame with
            | same => exact sameTime_refl L _
            | dt h => exact h
          | _ => cases hacc

theorem single_needed {L : Lib} (hU : UtcOk L) (hF : ∀ x, ';' ∉ L.formatFloat x) {mem : MemberLoad σ}
    {memd : MemberDump σ} (hmem : MemStable L mem) {R : σ → σ → Prop} {o o' : Obj σ} {st st' : DState} {n : Str}
    {items : List Item} {zones : List (Str × Nat)} {ctx1 : Ctx} (h1 : dumpObj L memd o st = .ok (.cont n items, st'))
    (h2 : loadObj L mem o.cls items (some zones) = .ok (o', ctx1)) {s : AttrSpec} (hs : .value s ∈ o.cls.convs)
    (hm : s.multi = false) (hp : dictGet? o.extraParams (upper s.attr) = none)
    (hv : ∀ v, o.get s.attr = .one v → PyVal v) (hR : SameAttr L R (o.get s.attr) (o'.get s.attr)) :
    KeptSingle L zones o s := single_wrote hU hF hmem (wrote_obj h1) h2 hs hm hp hv hR

end Ics
