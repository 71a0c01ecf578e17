import Verif.Spec.Survive
import Verif.Props.Url
import Verif.Props.Accepts
import Verif.Props.Generic
import Verif.Props.Text
import Verif.Proofs.Accepted
import Verif.Proofs.Represent
import Verif.Proofs.Period
import Verif.Proofs.Lists

namespace Ics

variable {σ : Type}

/-! ### Years with less than four digits -/

theorem natStr_head_pos : ∀ y < 1000, 1 ≤ y → ∃ c l, natStr y = c :: l ∧ c ≠ '0' := by
  intro y h1 h2
  have key : ∀ y < 1000, 1 ≤ y → (match natStr y with | c :: _ => decide (c ≠ '0') | [] => false) = true := by
    decide +kernel
  have := key y h1 h2
  cases h : natStr y with
  | nil => rw [h] at this; cases this
  | cons c l => rw [h] at this; exact ⟨c, l, rfl, of_decide_eq_true this⟩

theorem num2_ge {a b : Char} {n : Nat} (h : num2 a b = some n) (ha : a ≠ '0') : 10 ≤ n := by
  unfold num2 at h
  split at h
  · rename_i hd
    have h := Option.some.inj h
    rw [← h]
    have h1 : 48 ≤ a.toNat ∧ a.toNat ≤ 57 := by
      have := hd.1
      simpa [isDigit, Char.le_def, UInt32.le_iff_toNat_le] using this
    have h2 : a.toNat ≠ 48 := fun he => ha (Char.ext (UInt32.toNat_inj.1 (by simpa using he)))
    simp only [Nat.ofDigitChars_eq_foldl, List.foldl_cons, List.foldl_nil]
    have : '0'.toNat = 48 := rfl
    omega
  · cases h

theorem strptime_year {c : Char} {l : Str} {f : Fields} (h : strptimeFields (c :: l) = some f) (hc : c ≠ '0') :
    1000 ≤ f.year := by
  obtain ⟨y2, y3, y4, m1, m2, s, rfl⟩ : ∃ y2 y3 y4 m1 m2 s, l = y2 :: y3 :: y4 :: m1 :: m2 :: s := by
    match l, h with
    | y2 :: y3 :: y4 :: m1 :: m2 :: s, _ => exact ⟨y2, y3, y4, m1, m2, s, rfl⟩
  simp only [strptimeFields] at h
  have hy : ∀ y, yearField c y2 y3 y4 = some y → 1000 ≤ y := by
    intro y h
    unfold yearField at h
    split at h
    · rename_i x z h1 h2
      have := num2_ge h1 hc
      have := Option.some.inj h
      omega
    · cases h
  have ht : ∀ {y m d : Nat} {t : Str} {f : Fields}, strptimeTime y m d t = some f → f.year = y := by
    intro y m d t f h
    unfold strptimeTime at h
    split at h
    · cases hh : hourField _ _ with
      | none => rw [hh] at h; cases h
      | some x => rw [hh] at h; cases h; rfl
    · split at h
      · cases h; rfl
      · cases h
    · split at h
      · cases h; rfl
      · cases h
    · cases h
  split at h
  · rename_i y m h1 h2
    have := hy y h1
    split at h
    · cases h; exact this
    · split at h
      · split at h
        · cases h; exact this
        · split at h
          · rw [ht h]; exact this
          · cases h
      · cases h
    · cases h
  · cases h

theorem wallOf_year {f : Fields} {w : Int} (h : wallOf f = .ok w) (hy : 1000 ≤ f.year) : 364877 * 86400000000 ≤ w := by
  unfold wallOf at h
  split at h
  · rename_i hc
    have hw := Except.ok.inj h
    have hb : 364877 ≤ daysBeforeYear f.year := by
      rw [← daysBeforeYear_1000]
      by_cases he : f.year = 1000
      · rw [he]
      · have := daysBeforeYear_mono (y := 1000) (y' := f.year) (by decide) (by omega)
        omega
    have : 364878 ≤ ymd2ord f.year f.month f.day := by unfold ymd2ord; omega
    simp only [dayUs] at hw
    rw [← hw]
    have hz : 0 ≤ ((f.hour * 3600 + f.minute * 60 + f.second : Nat) : Int) := by omega
    have : (364877 : Int) ≤ ((ymd2ord f.year f.month f.day - 1 : Nat) : Int) := by omega
    omega
  · cases h

/-- What the characters of a date-time are. -/
theorem stripDt_digits {s : Str} (h : ∀ c ∈ s, isDigit c = true ∨ c = 'T') : stripDt s = s := by
  unfold stripDt
  rw [List.filter_eq_self]
  intro c hc
  rcases h c hc with h | rfl
  · have : c ≠ '/' ∧ c ≠ '-' ∧ c ≠ 'Z' ∧ c ≠ 'z' := by
      refine ⟨?_, ?_, ?_, ?_⟩ <;> · rintro rfl; revert h; decide
    simpa using this
  · decide

/-- What is written and read as the same wall clock has whole seconds and a year with four digits. -/
theorem wall_kept {pad : Bool} {wall w : Int} {f : Fields} (h : 0 ≤ wall ∧ wall < maxWall)
    (h1 : strptimeFields (datetimeStr pad (fieldsOf wall)) = some f) (h2 : wallOf f = .ok w) (hw : w = wall) :
    wall % 1000000 = 0 ∧ (pad = true ∨ 364877 * 86400000000 ≤ wall) := by
  subst hw
  refine ⟨(wallOf_good h2).1, ?_⟩
  cases pad with
  | true => exact .inl rfl
  | false =>
    right
    by_cases hy : 1000 ≤ (fieldsOf w).year
    · have h3 := (strptime_datetimeStr (pad := false) (fieldsOf_ok h) (.inr hy)).1
      rw [h1] at h3
      rw [← Option.some.inj h3] at hy
      exact wallOf_year h2 hy
    · obtain ⟨c, l, hl, hc⟩ := natStr_head_pos (fieldsOf w).year (by omega) (fieldsOf_ok h).1
      have he : datetimeStr false (fieldsOf w) = c :: (l ++ pad2 (fieldsOf w).month ++ pad2 (fieldsOf w).day ++
          'T' :: (pad2 (fieldsOf w).hour ++ pad2 (fieldsOf w).minute ++ pad2 (fieldsOf w).second)) := by
        simp only [datetimeStr, dateStr, yearStr, hl]
        simp
      rw [he] at h1
      exact wallOf_year h2 (strptime_year h1 hc)

/-! ### Date-times -/

theorem sameTime_refl (L : Lib) (d : DT) : SameTime L d d := ⟨rfl, rfl, .inl rfl⟩

theorem sameVal_dt {L : Lib} {d : DT} {v : Val σ} (h : SameVal L Eq (.dt d) v) : ∃ d', v = .dt d' ∧ SameTime L d d' := by
  cases h with
  | same => exact ⟨d, rfl, sameTime_refl L d⟩
  | dt h => exact ⟨_, rfl, h⟩

theorem knows_select (L : Lib) (zones : List (Str × Nat)) (name : Str) (n : Nat) :
    Knows L zones name n ↔ ∃ ctx', selectTz L.toWorld (some zones) name = .ok (n, ctx') := by
  simp only [selectTz_iff]
  constructor
  · rintro (h | ⟨h, h1 | ⟨h1, h2⟩⟩)
    · exact ⟨_, .known h⟩
    · exact ⟨_, .named h h1⟩
    · exact ⟨_, .dateutil h h1 h2⟩
  · rintro ⟨ctx', h⟩
    cases h with
    | known h => exact .inl h
    | named h h1 => exact .inr ⟨h, .inl h1⟩
    | dateutil h h1 h2 => exact .inr ⟨h, .inr ⟨h1, h2⟩⟩

theorem last_digits {s : Str} (h : ∀ c ∈ s, isDigit c = true ∨ c = 'T') {last : Char} (hl : s.getLast? = some last) :
    ¬ (last = 'Z' ∨ last = 'z') := by
  have := h last (List.mem_of_getLast? hl)
  rintro (rfl | rfl) <;> revert this <;> decide

theorem stripDt_z {s : Str} (h : ∀ c ∈ s, isDigit c = true ∨ c = 'T') : stripDt (s ++ ['Z']) = s := by
  have := stripDt_digits h
  unfold stripDt at this ⊢
  rw [List.filter_append, this]
  simp

/-- A date-time that survives. -/
theorem time_kept {L : Lib} (hU : L.isUtc L.utc = true) {zones : List (Str × Nat)} {d : DT}
    (hr : 0 ≤ d.wall ∧ d.wall < maxWall) (h : KeptTime L zones d) (avail : List (Str × Nat)) :
    ∃ text params ctx d' params' ctx', serializeDt L.toWorld d [] (some avail) = .ok (text, params, ctx) ∧
      parseDt L.toWorld datetimeFormats text params (some zones) = .ok (d', params', ctx') ∧ SameTime L d d' := by
  obtain ⟨wall, fold, tz⟩ := d
  obtain ⟨h1, rfl, h3, h4⟩ : wall % 1000000 = 0 ∧ fold = false ∧ _ ∧ KeptZone L zones tz := h
  obtain ⟨e1, e2, e3⟩ := strptime_datetimeStr (pad := L.padYear) (fieldsOf_ok hr) (h3.imp_right (year_ge_1000 hr))
  dsimp only at e1 e2 e3
  have hw : wallOf (fieldsOf wall) = .ok wall := by rw [wallOf_fieldsOf hr]; dsimp only; rw [h1, Int.sub_zero]
  have hlen : (15 : Nat) ∈ datetimeFormats := by decide
  obtain ⟨last, hl⟩ : ∃ last, (datetimeStr L.padYear (fieldsOf wall)).getLast? = some last := by
    cases h : (datetimeStr L.padYear (fieldsOf wall)).getLast? with
    | none => rw [List.getLast?_eq_none_iff.1 h] at e2; cases e2
    | some c => exact ⟨c, rfl⟩
  have hnz := last_digits e3 hl
  have naive : parseDt L.toWorld datetimeFormats (datetimeStr L.padYear (fieldsOf wall)) [] (some zones) =
      .ok (⟨wall, false, none⟩, [], some zones) := by
    refine (parseDt_iff _ _ _ _ _ _).2 ⟨none, last, wall, rfl, hl, ?_, ⟨_, ?_, hw⟩, .inr (.inl ⟨hnz, rfl, rfl⟩)⟩
    · rw [stripDt_digits e3, e2]; exact hlen
    · rw [stripDt_digits e3]; exact e1
  cases tz with
  | none => exact ⟨_, _, _, _, _, _, rfl, naive, sameTime_refl L _⟩
  | some t =>
    cases t with
    | loc k => exact absurd h4 id
    | fixed o => exact absurd h4 id
    | zone n =>
      by_cases hu : L.isUtc n = true
      · have hd : L.toWorld.dtIsUtc ⟨wall, false, some (.zone n)⟩ = true := hu
        refine ⟨datetimeStr L.padYear (fieldsOf wall) ++ ['Z'], [], some avail, ⟨wall, false, some (.zone L.utc)⟩, [],
          some zones, ?_, ?_, rfl, rfl, .inr ⟨n, L.utc, rfl, rfl, hu, hU⟩⟩
        · simp [serializeDt, hd]
        · refine (parseDt_iff _ _ _ _ _ _).2 ⟨none, 'Z', wall, rfl, by simp, ?_, ⟨_, ?_, hw⟩, .inl ⟨.inl rfl, rfl, rfl⟩⟩
          · rw [stripDt_z e3, e2]; exact hlen
          · rw [stripDt_z e3]; exact e1
      · obtain ⟨z, hc, hz, hf⟩ := h4.resolve_left hu
        have hd : L.toWorld.dtIsUtc ⟨wall, false, some (.zone n)⟩ = false := by
          simpa [Env.dtIsUtc] using hu
        obtain ⟨ctx', hsel⟩ := (knows_select L zones _ n).1 hf
        refine ⟨datetimeStr L.padYear (fieldsOf wall), [("TZID".toList, [⟨false, L.tzid z⟩])],
          some (dictSetDefault avail (L.tzid z) z),
          ⟨wall, false, some (.zone n)⟩, [], ctx', ?_, ?_, sameTime_refl L _⟩
        · simp only [serializeDt, hd, hc]; rfl
        · refine (parseDt_iff _ _ _ _ _ _).2 ⟨some (L.tzid z), last, wall, ?_, hl, ?_, ⟨_, ?_, hw⟩,
            .inr (.inr ⟨hnz, L.tzid z, n, ctx', rfl, hsel, ?_⟩)⟩
          · simp [paramTz, dictGet?, hz]
          · rw [stripDt_digits e3, e2]; exact hlen
          · rw [stripDt_digits e3]; exact e1
          · rfl

/-- A date-time that survives is of this kind. -/
theorem time_kept_of {L : Lib} {zones : List (Str × Nat)} {d d' : DT} (hr : 0 ≤ d.wall ∧ d.wall < maxWall)
    {ctx0 : Ctx} {text : Str} {params params' : Params} {ctx ctx' : Ctx}
    (h1 : serializeDt L.toWorld d [] ctx0 = .ok (text, params, ctx))
    (h2 : parseDt L.toWorld datetimeFormats text params (some zones) = .ok (d', params', ctx'))
    (hs : SameTime L d d') : KeptTime L zones d := by
  obtain ⟨wall, fold, tz⟩ := d
  have e3 := datetimeStr_chars L.padYear (fieldsOf wall)
  obtain ⟨tz', last, w, p1, p2, p3, ⟨f, p4, p5⟩, p6⟩ := (parseDt_iff _ _ _ _ _ _).1 h2
  have hd' : d'.wall = w ∧ d'.fold = false := by
    rcases p6 with ⟨_, _, h⟩ | ⟨_, _, h⟩ | ⟨_, _, _, _, _, _, h⟩ <;> cases h <;> exact ⟨rfl, rfl⟩
  obtain ⟨s1, s2, s3⟩ := hs
  dsimp only at s1 s2 s3
  have fin : stripDt text = datetimeStr L.padYear (fieldsOf wall) → KeptZone L zones tz →
      KeptTime L zones ⟨wall, fold, tz⟩ := by
    intro ht hz
    rw [ht] at p4
    obtain ⟨k1, k2⟩ := wall_kept hr p4 p5 (by rw [s1, hd'.1])
    exact ⟨k1, by rw [← hd'.2]; exact s2, k2, hz⟩
  by_cases hu : L.toWorld.dtIsUtc ⟨wall, fold, tz⟩ = true
  · simp only [serializeDt, hu, if_true] at h1
    cases h1
    refine fin (stripDt_z e3) ?_
    unfold Env.dtIsUtc at hu
    dsimp only at hu
    split at hu
    · exact .inl hu
    · cases hu
  · have hu : L.toWorld.dtIsUtc ⟨wall, fold, tz⟩ = false := by simpa using hu
    simp only [serializeDt, hu] at h1
    cases tz with
    | none =>
      cases h1
      exact fin (stripDt_digits e3) trivial
    | some t =>
      dsimp only at h1
      cases hc : L.conv t with
      | unserializable => rw [hc] at h1; cases h1
      | localTime =>
        rw [hc] at h1
        cases h1
        exfalso
        have hn := last_digits e3 p2
        rcases p6 with ⟨hz, _⟩ | ⟨_, _, h⟩ | ⟨_, name, z, c, h, _⟩
        · exact hn hz
        · cases h
          rcases s3 with h | ⟨m, n, _, h, _⟩ <;> cases h
        · rw [h] at p1; cases p1
      | timezone z =>
        rw [hc] at h1
        cases ctx0 with
        | none => cases h1
        | some avail =>
        cases h1
        refine fin (stripDt_digits e3) ?_
        have hn := last_digits e3 p2
        rcases p6 with ⟨hz, _⟩ | ⟨_, _, h⟩ | ⟨_, name, z', c, h, hsel, h'⟩
        · exact absurd hz hn
        · cases h
          rcases s3 with h | ⟨m, n, _, h, _⟩ <;> cases h
        · cases h'
          have hname : L.tzid z ≠ [] ∧ name = L.tzid z := by
            rw [h] at p1
            have e : paramTz [("TZID".toList, [(⟨false, L.tzid z⟩ : PVal)])] =
                .ok (if L.tzid z = [] then none else some (L.tzid z)) := by
              simp [paramTz, dictGet?]
            have p1 : paramTz [("TZID".toList, [(⟨false, L.tzid z⟩ : PVal)])] = .ok (some name) := p1
            rw [e] at p1
            have p1 := Except.ok.inj p1
            split at p1
            · cases p1
            · rename_i hne
              exact ⟨hne, (Option.some.inj p1).symm⟩
          obtain ⟨hne, rfl⟩ := hname
          have hf := (knows_select L zones _ z').2 ⟨_, hsel⟩
          rcases s3 with h | ⟨m, n, h, _, hm, _⟩
          · cases h
            exact .inr ⟨z, hc, hne, hf⟩
          · cases h
            exact .inl hm

/-! ### All values -/

theorem url_kept (L : Lib) (u : Url) : urlparse L.urlChecks u.geturl = .ok u ↔ KeptUrl L u := by
  constructor
  · intro h
    refine ⟨⟨_, h⟩, fun hs => ?_⟩
    have h2 := C62_slash_fails _ _ _ h hs
    rw [h] at h2
    have h3 : u.path = '/' :: u.path := congrArg Url.path (Except.ok.inj h2)
    have := congrArg List.length h3
    simp at this
  · rintro ⟨⟨s, h⟩, hs⟩
    exact C62_same_partial _ s u h hs

theorem geo_read {L : Lib} (hF : ∀ x, ';' ∉ L.formatFloat x) (lat lon : Nat) (ctx : Ctx) :
    ValConv.geo.parse (σ := σ) L (L.formatFloat lat ++ ';' :: L.formatFloat lon) [] ctx =
        match L.parseFloat (L.formatFloat lat), L.parseFloat (L.formatFloat lon) with
        | some x, some y => .ok (.geo x y, [], ctx)
        | _, _ => .error .valueError := by
  simp only [ValConv.parse, geoParse, cutAt_append (hF lat)]
  cases L.parseFloat (L.formatFloat lat) <;> cases L.parseFloat (L.formatFloat lon) <;> rfl

theorem update_extra {extra : Params} (h : (extra.map Prod.fst).Nodup) : dictUpdate [] extra = extra :=
  dictUpdate_nil (d := []) h

theorem person_kept {L : Lib} {zones : List (Str × Nat)} {att : Bool} {e : Email} {extra : Params} {R : σ → σ → Prop}
    {v : Val σ} {p : Params} {ctx : Ctx}
    (h2 : ((urlparse L.urlChecks e.str?).map fun u => ((.person att (.url u) extra : Val σ), ([] : Params), some zones)) =
      .ok (v, p, ctx)) (h3 : SameVal L R (.person att e extra) v) : ∃ u, e = .url u ∧ KeptUrl L u := by
  cases hu : urlparse L.urlChecks e.str? with
  | error x => rw [hu] at h2; cases h2
  | ok u =>
    rw [hu] at h2
    cases h2
    have he : e = .url u := by cases h3; rfl
    subst he
    exact ⟨u, rfl, (url_kept L u).1 hu⟩

/-- A value that survives is of this kind. -/
theorem kept_of {L : Lib} (hF : ∀ x, ';' ∉ L.formatFloat x) {zones : List (Str × Nat)} {R : σ → σ → Prop}
    {c : ValConv} {v v' : Val σ} (hc : c.accepts v = true) (hv : PyVal v) {ctx0 ctx ctx' : Ctx} {text : Str}
    {params params' : Params} (h1 : c.serialize L v [] ctx0 = .ok (text, params, ctx))
    (h2 : c.parse L text params (some zones) = .ok (v', params', ctx')) (h3 : SameVal L R v v') : Kept L zones c v := by
  cases c <;> cases v <;> first | cases hc | skip
  · exact .text _
  · rename_i u
    cases h1
    refine .uri ((url_kept L u).1 ?_)
    simp only [ValConv.parse] at h2
    cases hu : urlparse L.urlChecks u.geturl with
    | error x => rw [hu] at h2; cases h2
    | ok u' => rw [hu] at h2; cases h2; cases h3; rfl
  · exact .binary _
  · rename_i d
    simp only [ValConv.parse] at h2
    obtain ⟨r, hr, h4⟩ := map_ok_iff.1 h2
    obtain ⟨d2, p2, c2⟩ := r
    cases h4
    refine .datetime (time_kept_of hv h1 hr ?_)
    cases h3 with
    | same => exact sameTime_refl L _
    | dt h => exact h
  · rename_i us
    cases h1
    simp only [ValConv.parse, C13_truncates us hv, Except.map] at h2
    cases h2
    refine .duration ?_
    have he : us = us.tdiv 1000000 * 1000000 := by
      generalize us.tdiv 1000000 * 1000000 = x at h3
      cases h3
      rfl
    omega
  · rename_i n
    refine .integer (Nat.lt_of_not_le fun hn => ?_)
    simp only [ValConv.serialize, C18_int_limit n hn] at h1
    cases h1
  · rename_i b
    cases h1
    have e : intParse (if b then "True".toList else "False".toList) = .error .valueError := by
      cases b <;> decide +kernel
    simp only [ValConv.parse, e] at h2
    cases h2
  · exact .boolean _
  · rename_i lat lon
    cases h1
    rw [geo_read hF] at h2
    cases ha : L.parseFloat (L.formatFloat lat) with
    | none => rw [ha] at h2; cases h2
    | some x =>
      cases hb : L.parseFloat (L.formatFloat lon) with
      | none => rw [ha, hb] at h2; cases h2
      | some y =>
        rw [ha, hb] at h2
        cases h2
        cases h3
        exact .geo ha hb
  · rename_i att e extra
    cases att
    · have hv : (extra.map Prod.fst).Nodup := hv
      simp only [ValConv.serialize, update_extra hv] at h1
      cases h1
      obtain ⟨u, rfl, hk⟩ := person_kept h2 h3
      exact .organizer _ hk
    · cases hc
  · rename_i e extra
    have hv : (extra.map Prod.fst).Nodup := hv
    simp only [ValConv.serialize, update_extra hv] at h1
    cases h1
    obtain ⟨u, rfl, hk⟩ := person_kept h2 h3
    exact .attendee _ hk

/-- A value of this kind survives. -/
theorem kept_survives {L : Lib} (hU : L.isUtc L.utc = true) (hF : ∀ x, ';' ∉ L.formatFloat x)
    {zones : List (Str × Nat)} {c : ValConv} {v : Val σ} (hv : PyVal v) (h : Kept L zones c v) : Survives L zones c v := by
  have simple : ∀ {c : ValConv} {v : Val σ} {t : Str},
      (∀ ctx, c.serialize L v [] ctx = .ok (t, [], ctx)) →
      (∀ ctx, c.parse L t [] ctx = .ok (v, [], ctx)) → Survives L zones c v :=
    fun h1 h2 avail => ⟨_, _, _, _, _, _, h1 _, h2 _, .same _⟩
  cases h with
  | text s =>
    refine simple (fun ctx => rfl) fun ctx => ?_
    simp [ValConv.parse, C10_roundtrip, Except.map]
  | @uri u h =>
    refine simple (fun ctx => rfl) fun ctx => ?_
    simp only [ValConv.parse, (url_kept L u).2 h, Except.map]
  | binary b =>
    refine simple (fun ctx => rfl) fun ctx => ?_
    simp [ValConv.parse, C18_binary, Except.map]
  | @datetime d h =>
    intro avail
    obtain ⟨text, ps, ctx, d', ps', ctx', h1, h2, h3⟩ := time_kept hU hv h avail
    refine ⟨text, ps, ctx, .dt d', ps', ctx', h1, ?_, .dt h3⟩
    simp only [ValConv.parse, h2, Except.map]
  | @duration us h =>
    refine simple (fun ctx => rfl) fun ctx => ?_
    have e : us = us / 1000000 * 1000000 := by omega
    have := C13_roundtrip (us / 1000000) (by rw [← e]; exact hv)
    rw [← e] at this
    simp [ValConv.parse, this, Except.map]
  | @integer n h =>
    obtain ⟨t, h1, h2⟩ := C18_int n h
    refine simple (t := t) (fun ctx => ?_) fun ctx => ?_
    · simp [ValConv.serialize, h1, Except.map]
    · simp [ValConv.parse, h2, Except.map]
  | boolean b =>
    refine simple (fun ctx => rfl) fun ctx => ?_
    simp [ValConv.parse, C18_bool, Except.map]
  | geo ha hb =>
    refine simple (fun ctx => rfl) fun ctx => ?_
    rw [geo_read hF, ha, hb]
  | @organizer u extra h =>
    intro avail
    have hv : (extra.map Prod.fst).Nodup := hv
    refine ⟨u.geturl, extra, some avail, _, [], some zones, ?_, ?_, .same _⟩
    · simp only [ValConv.serialize, update_extra hv]; rfl
    · simp only [ValConv.parse, (url_kept L u).2 h]; rfl
  | @attendee u extra h =>
    intro avail
    have hv : (extra.map Prod.fst).Nodup := hv
    refine ⟨u.geturl, extra, some avail, _, [], some zones, ?_, ?_, .same _⟩
    · simp only [ValConv.serialize, update_extra hv]; rfl
    · simp only [ValConv.parse, (url_kept L u).2 h]; rfl

end Ics
