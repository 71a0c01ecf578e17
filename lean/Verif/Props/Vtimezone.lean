import Verif.Proofs.ReadZone
import Verif.Props.RoundTrip
import Verif.Props.Timezone

/-
C59 (time zones survive being written and read), C60 (what a time zone that was read consists of).
-/
namespace Ics

/-! ### A zone for the examples -/

/-- The start of the rules of the examples: 1 January 1970. -/
def exOnset : DT := ⟨719162 * 86400000000, false, none⟩

/-- A rule of the examples. -/
def exRule (v : String) : RRule := ⟨some exOnset, "DTSTART:19700101T000000\nRRULE:".toList ++ v.toList⟩

/-- Summer time, by a rule. -/
def exSummerObj : ObsObj where
  isDst := true
  offsetFrom := exHour
  offsetTo := 2 * exHour
  rules := ⟨[exRule "FREQ=YEARLY;BYMONTH=3"], [], [], []⟩
  tzname := some "CEST".toList
  comment := none
  extra := [exLine "X-NOTE" "summer"]
  extraParams := [("TZNAME".toList, .one [("LANGUAGE".toList, [⟨false, "de".toList⟩])])]

/-- Winter time, by two dates. -/
def exWinterObj : ObsObj where
  isDst := false
  offsetFrom := 2 * exHour
  offsetTo := exHour
  rules := ⟨[], [], [⟨exOnset.wall + 300 * dayUs, false, none⟩, ⟨exOnset.wall + 665 * dayUs, false, none⟩], []⟩
  tzname := some "CET".toList
  comment := some "a, b".toList
  extra := []
  extraParams := []

/-- A zone with both. -/
def exTz : TzObj where
  tzid := "Europe/Nowhere".toList
  observances := [exSummerObj, exWinterObj]
  tzurl := none
  lastModified := some ⟨63844810662000000, false, some (.zone 2)⟩
  extra := [exLine "X-LIC-LOCATION" "Europe/Nowhere"]
  extraParams := []

/-- What dateutil makes of the rules of the two observances: the start of a rule becomes a date. -/
def exBack (rs : RuleSet) : RuleSet := if rs.rrule = [] then rs else { rs with rdate := [exOnset] }

/-- What dateutil makes of the lines of the two observances. -/
def exRRuleStr : RRuleStr := fun text _ =>
  if text = "DTSTART:19700101T000000\r\nRRULE:FREQ=YEARLY;BYMONTH=3\r\n".toList then .ok (exBack exSummerObj.rules)
  else if text = "RDATE:19701028T000000\r\nRDATE:19711028T000000\r\n".toList then .ok exWinterObj.rules
  else .error .valueError

theorem exTz_rep : RepTz exLib .none exRRuleStr exBack exTz where
  observances := by
    intro o ho
    have hs : PlainTime exLib exOnset := by unfold PlainTime; decide
    have h0 : SortedDates exLib [] [] := ⟨⟨fun d h => absurd h List.not_mem_nil, List.Pairwise.nil⟩, fun _ => Iff.rfl⟩
    have hd : ∀ d ∈ exWinterObj.rules.rdate, PlainTime exLib d := by unfold PlainTime; decide
    rcases List.mem_cons.1 ho with rfl | ho
    · refine ⟨by unfold RepOffset; decide, by unfold RepOffset; decide, ?_, ?_, ?_, ⟨trivial, fun h => nomatch h⟩,
        ⟨trivial, fun h => nomatch h⟩, ⟨⟨by decide, by decide⟩, fun h => nomatch h⟩, ⟨trivial, fun _ => rfl⟩⟩
      · refine ⟨exOnset, ["FREQ=YEARLY;BYMONTH=3".toList], [], [], [],
          "DTSTART:19700101T000000\r\nRRULE:FREQ=YEARLY;BYMONTH=3\r\n".toList, exBack exSummerObj.rules, hs, ?_, .nil,
          h0, h0, by decide, by decide +kernel, by decide +kernel, rfl, rfl, ⟨⟨fun d hd => ?_, ?_⟩, fun _ => Iff.rfl⟩, h0⟩
        rotate_left
        · have hd : d ∈ [exOnset] := hd
          rw [List.mem_singleton.1 hd]
          exact hs
        · exact List.pairwise_singleton _ _
        exact .cons ⟨rfl, by unfold NoBreak; decide, "19700101T000000".toList, by unfold NoBreak; decide, rfl⟩ .nil
      · decide
      · intro k v hk
        have := (mem_of_dictGet hk)
        rw [List.mem_singleton.1 this |> congrArg Prod.fst |> fun h => (h : k = "TZNAME".toList)]
        decide
    · rw [List.mem_singleton.1 ho]
      refine ⟨by unfold RepOffset; decide, by unfold RepOffset; decide, ?_, by decide, ?_, ⟨trivial, fun h => nomatch h⟩,
        ⟨trivial, fun h => nomatch h⟩, ⟨trivial, fun h => nomatch h⟩, ⟨trivial, fun h => nomatch h⟩⟩
      · have hw : SortedDates exLib exWinterObj.rules.rdate exWinterObj.rules.rdate := ⟨⟨hd, by decide⟩, fun _ => Iff.rfl⟩
        exact ⟨exOnset, [], [], exWinterObj.rules.rdate, [], "RDATE:19701028T000000\r\nRDATE:19711028T000000\r\n".toList,
          exWinterObj.rules, hs, .nil, .nil, hw, h0, by decide, by decide +kernel, by decide +kernel, rfl, rfl, hw, h0⟩
      · intro k v hk
        exact absurd (mem_of_dictGet hk) List.not_mem_nil
  url := fun u h => nomatch h
  modified := by
    intro d hd
    cases hd
    exact ⟨rfl, by decide, rfl, by decide, by decide, by decide, Or.inl (by decide)⟩
  extra := by decide
  keys := fun k v hk => absurd (mem_of_dictGet hk) List.not_mem_nil
  idParams := ⟨trivial, fun h => nomatch h⟩
  urlParams := ⟨trivial, fun _ => rfl⟩
  modifiedParams := ⟨trivial, fun h => nomatch h⟩

/-! ### C59 -/

/-- A rule is determined by its occurrences. -/
theorem Rule.ext_occurs {a b : Rule} (h : ∀ t, a.occurs t ↔ b.occurs t) : a = b := by
  obtain ⟨oa, fa, sa, na⟩ := a
  obtain ⟨ob, fb, sb, nb⟩ := b
  have ho : oa = ob := funext fun t => propext (h t)
  subst ho
  have hb : fa = fb := by
    funext t
    cases ha : fa t with
    | none =>
      cases hb : fb t with
      | none => rfl
      | some y => exact absurd (na t ha y (sb t y hb).1) (by have := (sb t y hb).2.1; omega)
    | some x =>
      obtain ⟨x1, x2, x3⟩ := sa t x ha
      cases hb : fb t with
      | none => exact absurd (nb t hb x x1) (by omega)
      | some y =>
        obtain ⟨y1, y2, y3⟩ := sb t y hb
        have h1 := x3 y y1 y2
        have h2 := y3 x x1 x2
        rw [show x = y by omega]
  subst hb
  rfl

/-- C59: a time zone that can be written is read back as the same time zone: the same name, the same
observances with the same offsets, the rules and dates that dateutil finds, the same unknown items and
parameters.

Missing for the full claim: what dateutil makes of the lines is an assumption (`RepRules`, with the function
`f`), and the zones for which the claim is false are excluded (see the theorems below). -/
theorem C59_roundtrip_partial {L : Lib} {w : Wrap} {R : RRuleStr} (hU : UtcOk L) {f : RuleSet → RuleSet} {z : TzObj}
    (h : RepTz L w R f z) :
    ∃ items z', dumpTimezone L z = .ok (.cont "VTIMEZONE".toList items) ∧ loadTimezone L w R items = .ok z' ∧
      SameTz f z z' :=
  timezone_roundtrip hU h

example : UtcOk exLib ∧ RepTz exLib .none exRRuleStr exBack exTz ∧ exTz.observances.length = 2 :=
  ⟨exLib_utc, exTz_rep, rfl⟩

/-- C59: the zone that is read back answers every query as the zone that was written, after the same
queries before, if the rules that dateutil finds have the same occurrences as those that were written. -/
theorem C59_answers_partial {L : Lib} {w : Wrap} {R : RRuleStr} (hU : UtcOk L) {f : RuleSet → RuleSet} {z : TzObj}
    (h : RepTz L w R f z) (occ : RuleSet → Rule)
    (hf : ∀ o ∈ z.observances, ∀ t, (occ (f o.rules)).occurs t ↔ (occ o.rules).occurs t) :
    ∃ items z', dumpTimezone L z = .ok (.cont "VTIMEZONE".toList items) ∧ loadTimezone L w R items = .ok z' ∧
      ∀ q wall fold cache, askTz (z'.zone occ) q wall fold cache = askTz (z.zone occ) q wall fold cache := by
  obtain ⟨items, z', h1, h2, h3⟩ := timezone_roundtrip hU h
  refine ⟨items, z', h1, h2, ?_⟩
  have : z'.zone occ = z.zone occ := by
    unfold TzObj.zone
    have := h3.observances
    generalize z.observances = a at this hf
    generalize z'.observances = b at this
    induction this with
    | nil => rfl
    | cons h _ ih =>
      rw [List.map_cons, List.map_cons, ih fun o ho => hf o (List.mem_cons_of_mem _ ho), h.isDst, h.offsetFrom,
        h.offsetTo, h.tzname, ← h.rules, Rule.ext_occurs (hf _ List.mem_cons_self)]
  intro q wall fold cache
  rw [this]

example : ((dumpTimezone exLib exTz).toOption.map Item.name) = some "VTIMEZONE".toList ∧
    (((dumpTimezone exLib exTz).toOption.bind fun i => match i with
      | .cont _ is => (loadTimezone exLib .none exRRuleStr is).toOption
      | .line _ => none).map fun z => z.observances.map fun o => (o.isDst, o.offsetTo, o.comment)) =
      some [(true, 2 * exHour, none), (false, exHour, some "a, b".toList)] :=
  ⟨by decide +kernel, by decide +kernel⟩

/-- The occurrences of the rules of the example: yearly. -/
def exOcc (rs : RuleSet) : Rule :=
  Rule.every (if rs.rrule = [] then exOnset.wall + 300 * dayUs else exOnset.wall) (365 * dayUs) (by decide)

/-- The start of the rule is one of its occurrences, so making it a date of the set changes nothing. -/
example : exBack exSummerObj.rules ≠ exSummerObj.rules ∧
    ∀ o ∈ exTz.observances, ∀ t, (exOcc (exBack o.rules)).occurs t ↔ (exOcc o.rules).occurs t := by
  refine ⟨by decide, fun o ho t => ?_⟩
  have ho : o ∈ [exSummerObj, exWinterObj] := ho
  simp only [List.mem_cons, List.not_mem_nil, or_false] at ho
  rcases ho with rfl | rfl <;> exact Iff.rfl

/-- C59 fails for an observance without rules and dates: it is written, but what is written cannot be
read. -/
theorem C59_empty_fails {L : Lib} (w : Wrap) (R : RRuleStr) {o : ObsObj} {n : Str} {items : List Item}
    (he : o.rules = ⟨[], [], [], []⟩) (hx : recurLines o.extra = []) (h : dumpObs L o = .ok (.cont n items))
    (e : Env) (avail : List (Str × Nat)) (b : Bool) (o' : ObsObj) : loadObs w R e avail b items ≠ .ok o' := by
  intro hl
  refine (loadObs_inv hl).2.rules.some ?_
  obtain ⟨a, b, c, d, h1, h2, h3, h4, rfl⟩ := dumpObs_empty he h
  unfold recurLines at *
  rw [List.filter_append, List.filter_append, List.filter_append, List.filter_append, hx,
    dumpField_other h1 (by decide), dumpField_other h2 (by decide), dumpField_other h3 (by decide),
    dumpField_other h4 (by decide)]
  rfl

example : (dumpObs exLib { exWinterObj with rules := ⟨[], [], [], []⟩ }).toOption.isSome = true := by decide +kernel

/-- C59 fails for rules that start in a time zone: the zone is not written. -/
theorem C59_start_zone_fails (L : Lib) (r : RRule) (d : DT) (t : Tz) (z : Nat) (hr : r.dtstart = some d) (ht : d.tz = some t)
    (hu : L.dtIsUtc d = false) (hz : L.conv t = .timezone z) :
    dumpRules L ⟨[r], [], [], []⟩ = dumpRules L ⟨[{ r with dtstart := some { d with tz := none } }], [], [], []⟩ := by
  have : dumpDtstart L [r] none = dumpDtstart L [{ r with dtstart := some { d with tz := none } }] none := by
    unfold dumpDtstart
    rw [hr]
    dsimp only
    rw [serializeDt_plain (d := { d with tz := none }) rfl]
    unfold serializeDt
    rw [hu, ht]
    dsimp only
    rw [hz]
    rfl
  unfold dumpRules
  simp only [List.append_nil]
  rw [this]
  rfl

example : ({ exRule "FREQ=DAILY" with dtstart := some ⟨exOnset.wall, false, some (.zone 1)⟩ } : RRule).dtstart =
      some ⟨exOnset.wall, false, some (.zone 1)⟩ ∧
    exLib.dtIsUtc ⟨exOnset.wall, false, some (.zone 1)⟩ = false ∧ exLib.conv (.zone 1) = .timezone 1 :=
  ⟨rfl, by decide, rfl⟩

/-- C59 fails for dates in a time zone: writing them is an `AttributeError`. -/
theorem C59_date_zone_fails (L : Lib) (d : DT) (t : Tz) (z : Nat) (ht : d.tz = some t) (hu : L.dtIsUtc d = false)
    (hz : L.conv t = .timezone z) : dumpRules L ⟨[], [], [d], []⟩ = .error .attributeError := by
  have : dumpDates L "RDATE".toList [d] = .error .attributeError := by
    unfold dumpDates serializeDt
    rw [hu, ht]
    dsimp only
    rw [hz]
    rfl
  unfold dumpRules
  show (dumpDates L "RDATE".toList [d] >>= _) = _
  rw [this]
  rfl

example : exLib.dtIsUtc ⟨exOnset.wall, false, some (.zone 1)⟩ = false ∧ exLib.conv (.zone 1) = .timezone 1 ∧
    dumpRules exLib ⟨[], [], [⟨exOnset.wall, false, some (.zone 1)⟩], []⟩ = .error .attributeError :=
  ⟨by decide, rfl, by decide +kernel⟩

/-- A rule set that is only dates is written without a DTSTART line, which RFC 5545 requires. -/
theorem C59_no_start (L : Lib) (rs : RuleSet) (h : rs.rrule = [] ∧ rs.exrule = []) (items : List Item)
    (hd : dumpRules L rs = .ok items) : ∀ i ∈ items, i.name ≠ "DTSTART".toList := by
  unfold dumpRules at hd
  rw [h.1, h.2] at hd
  simp only [List.append_nil, dumpDtstart, dumpRRules] at hd
  simp only [bind_ok_iff] at hd
  obtain ⟨a, ha, b, hb, c, hc, x, _, d, hd', y, _, e, he, hi⟩ := hd
  cases ha
  cases hb
  cases hc
  cases hi
  intro i hi
  rcases List.mem_append.1 hi with hi | hi
  · rw [dumpDates_names hd' i hi]
    decide
  · rw [dumpDates_names he i hi]
    decide

example : (dumpRules exLib exWinterObj.rules).toOption.map (fun is => is.map Item.name) =
    some ["RDATE".toList, "RDATE".toList] := by decide +kernel

/-- C59: a rule set can only be written if all its rules start at the same time. -/
theorem C59_one_start (L : Lib) (rs : RuleSet) (items : List Item) (hd : dumpRules L rs = .ok items) :
    ∃ c, ∀ r ∈ rs.rrule ++ rs.exrule, ∀ d, r.dtstart = some d → d = c ∨ L.eq c d = true := by
  unfold dumpRules at hd
  simp only [bind_ok_iff] at hd
  obtain ⟨a, ha, _⟩ := hd
  exact dumpDtstart_one ha

example : dumpRules exLib ⟨[exRule "FREQ=DAILY", ⟨some ⟨exOnset.wall + dayUs, false, none⟩, "RRULE:FREQ=DAILY".toList⟩], [], [], []⟩ =
    .error .valueError := by decide +kernel

/-- Dates are written in increasing order and each once, in whatever order and however often the rule set
has them. -/
theorem C59_dates_sorted (L : Lib) (rs : RuleSet) (hr : ∀ d ∈ rs.rdate, PlainTime L d)
    (he : ∀ d ∈ rs.exdate, PlainTime L d) (items : List Item) (hd : dumpRules L rs = .ok items) :
    ∃ (rules : List Item) (rdate exdate : List DT), items = rules ++ (rdate.map (timeLine L "RDATE")).map .line ++
        (exdate.map (timeLine L "EXDATE")).map .line ∧
      (∀ d, d ∈ rdate ↔ d ∈ rs.rdate) ∧ (∀ d, d ∈ exdate ↔ d ∈ rs.exdate) ∧
      rdate.Pairwise (fun a b => a.wall < b.wall) ∧ exdate.Pairwise (fun a b => a.wall < b.wall) := by
  obtain ⟨r, r1, r2, r3⟩ := normDates_ok L.toEnv rs.rdate fun d h => plain_naive (hr d h)
  obtain ⟨x, x1, x2, x3⟩ := normDates_ok L.toEnv rs.exdate fun d h => plain_naive (he d h)
  unfold dumpRules at hd
  simp only [bind_ok_iff] at hd
  obtain ⟨a, _, b, _, c, _, r', hr', d, hd', x', hx', e, he', hi⟩ := hd
  rw [r1] at hr'
  cases hr'
  rw [x1] at hx'
  cases hx'
  rw [dumpDates_plain (by decide) r fun d h => hr d ((r3 d).1 h)] at hd'
  rw [dumpDates_plain (by decide) x fun d h => he d ((x3 d).1 h)] at he'
  cases hd'
  cases he'
  cases hi
  exact ⟨a ++ b ++ c, r, x, rfl, r3, x3, r2, x2⟩

example : dumpRules exLib ⟨[], [], [⟨exOnset.wall + dayUs, false, none⟩, exOnset, ⟨exOnset.wall + dayUs, false, none⟩], []⟩ =
    .ok [exLine "RDATE" "19700101T000000", exLine "RDATE" "19700102T000000"] := by decide +kernel

/-- A rule whose text has a further line after the rule cannot be written: `AssertionError`. -/
theorem C59_rule_lines (r : RRule) (d a b : Str) (hd : NoBreak d) (ha : NoBreak a) (hb : NoBreak b) (hb0 : b ≠ [])
    (hp : "DTSTART".toList.isPrefixOf a = false)
    (ht : r.text = "DTSTART:".toList ++ d ++ '\n' :: (a ++ '\n' :: b)) : rruleLine r = .error .assertionError := by
  have hd' : ∀ c ∈ "DTSTART:".toList ++ d, isNl c = false := by
    intro c hc
    rcases List.mem_append.1 hc with hc | hc
    · have : ("DTSTART:".toList.all fun c => !isNl c) = true := by decide
      simpa using List.all_eq_true.1 this c hc
    · exact isNl_of_noBreak hd c hc
  have hs : stringToLines r.text = ["DTSTART:".toList ++ d, a, b] := by
    rw [ht, stringToLines, splitLines_plain _ _ _ hd', splitLines, List.append_nil, List.reverse_reverse]
    congr 1
    rw [splitLines_plain _ _ _ (isNl_of_noBreak ha), splitLines, List.append_nil, List.reverse_reverse]
    congr 1
    have := splitLines_plain b [] [] (isNl_of_noBreak hb)
    rw [List.append_nil, List.append_nil] at this
    rw [this, splitLines, List.reverse_reverse]
  have hq : pySplitlines r.text = ["DTSTART:".toList ++ d, a, b] := by
    unfold pySplitlines
    rw [hs]
    exact if_neg fun e => hb0 (Option.some.inj e)
  unfold rruleLine
  rw [hq]
  have h1 : "DTSTART".toList.isPrefixOf ("DTSTART:".toList ++ d) = true := rfl
  rw [List.dropWhile_cons_of_pos h1, List.dropWhile_cons_of_neg (by rw [hp]; exact Bool.false_ne_true)]

example : rruleLine ⟨some exOnset, "DTSTART:19700101T000000\nRRULE:FREQ=DAILY\nEXDATE:19700102T000000".toList⟩ =
    .error .assertionError := by decide +kernel

/-! ### C60 -/

/-- C60: a time zone that was read has the name of the only TZID line, the URL of the only TZURL line, one
observance for each STANDARD and DAYLIGHT container, in order, and keeps all other items.  Each observance
has the offsets of its only TZOFFSETFROM and TZOFFSETTO lines, the name and the comment, the rules and
dates that dateutil finds in its (at least one) recurrence lines, and keeps all other items. -/
theorem C60_read {L : Lib} {w : Wrap} {R : RRuleStr} {items : List Item} {z : TzObj}
    (h : loadTimezone L w R items = .ok z) : ReadTz L w R items z :=
  loadTimezone_inv h

/-- A VTIMEZONE for the examples. -/
def exVtimezone : List Item :=
  [exLine "X-A" "1", exLine "TZID" "Europe/Nowhere",
    .cont "DAYLIGHT".toList [exLine "TZOFFSETFROM" "+0100", exLine "TZNAME" "CEST" [("LANGUAGE".toList, [⟨false, "de".toList⟩])],
      exLine "DTSTART" "19700101T000000", exLine "RRULE" "FREQ=YEARLY;BYMONTH=3", exLine "TZOFFSETTO" "+0200"],
    exLine "X-B" "2"]

example : (loadTimezone exLib .none exRRuleStr exVtimezone).toOption.map (fun z => (z.tzid, z.extra.map Item.name)) =
      some ("Europe/Nowhere".toList, ["X-A".toList, "X-B".toList]) ∧
    (loadTimezone exLib .none exRRuleStr exVtimezone).toOption.map
      (fun z => z.observances.map fun o => (o.isDst, o.offsetFrom, o.offsetTo)) = some [(true, exHour, 2 * exHour)] :=
  ⟨by decide +kernel, by decide +kernel⟩

/-- C60: a VTIMEZONE without exactly one TZID is an error, as is an observance without exactly one
TZOFFSETFROM, exactly one TZOFFSETTO and at least one recurrence line. -/
theorem C60_required {L : Lib} {w : Wrap} {R : RRuleStr} {items : List Item} {z : TzObj}
    (h : loadTimezone L w R items = .ok z) :
    (items.filter fun i => i.name = "TZID".toList).length = 1 ∧
      ∀ n is, .cont n is ∈ items → n = "STANDARD".toList ∨ n = "DAYLIGHT".toList →
        (is.filter fun i => i.name = "TZOFFSETFROM".toList).length = 1 ∧
        (is.filter fun i => i.name = "TZOFFSETTO".toList).length = 1 ∧ recurLines is ≠ [] := by
  have hr := loadTimezone_inv h
  obtain ⟨cl, h1, _⟩ := hr.tzid
  refine ⟨by rw [h1]; rfl, fun n is hm hn => ?_⟩
  have hf : Item.cont n is ∈ items.filter fun i => i.name ∈ ["STANDARD", "DAYLIGHT"].map String.toList := by
    rw [List.mem_filter]
    refine ⟨hm, decide_eq_true ?_⟩
    rcases hn with rfl | rfl
    · exact List.mem_map_of_mem (by decide)
    · exact List.mem_map_of_mem (by decide)
  obtain ⟨o, _, is', avail, e, ho⟩ := forall2_mem hr.observances hf
  cases e
  obtain ⟨a, ha, _⟩ := ho.offsetFrom
  obtain ⟨b, hb, _⟩ := ho.offsetTo
  exact ⟨by rw [ha]; rfl, by rw [hb]; rfl, ho.rules.some⟩

example : ((loadTimezone exLib .none exRRuleStr (exVtimezone.filter fun i => i.name ≠ "TZID".toList)).map fun _ => ()) =
      .error .valueError ∧
    ((loadTimezone exLib .none exRRuleStr (exVtimezone ++ [exLine "TZID" "Y"])).map fun _ => ()) = .error .valueError ∧
    ((loadTimezone exLib .none exRRuleStr (exVtimezone ++ [.cont "STANDARD".toList
      [exLine "TZOFFSETFROM" "+0200", exLine "TZOFFSETTO" "+0100"]])).map fun _ => ()) = .error .keyError :=
  ⟨by decide +kernel, by decide +kernel, by decide +kernel⟩

/-- C60: a VTIMEZONE without observances is accepted (RFC 5545 requires at least one), and the zone
answers no query. -/
theorem C60_no_observances {L : Lib} {w : Wrap} {R : RRuleStr} {items : List Item} {z : TzObj}
    (h : loadTimezone L w R items = .ok z) (hn : ∀ i ∈ items, i.name ≠ "STANDARD".toList ∧ i.name ≠ "DAYLIGHT".toList)
    (occ : RuleSet → Rule) (q : TzQuery) (wall : Int) (fold : Bool) (cache : TzCache) :
    (askTz (z.zone occ) q wall fold cache).1 = .error .indexError := by
  have hr := (loadTimezone_inv h).observances
  have : (items.filter fun i => i.name ∈ ["STANDARD", "DAYLIGHT"].map String.toList) = [] := by
    rw [List.filter_eq_nil_iff]
    intro i hi e
    have e := of_decide_eq_true e
    obtain ⟨k, hk, e⟩ := List.mem_map.1 e
    rcases List.mem_cons.1 hk with rfl | hk
    · exact (hn i hi).1 e.symm
    · rw [List.mem_singleton.1 hk] at e
      exact (hn i hi).2 e.symm
  rw [this] at hr
  have hz : z.observances = [] := by
    exact List.forall₂_nil_left_iff.1 hr
  unfold TzObj.zone
  rw [hz]
  rfl

example : (loadTimezone exLib .none exRRuleStr [exLine "TZID" "Empty"]).toOption.isSome = true := by decide +kernel

end Ics
