import Mathlib.Data.List.Induction
import Verif.Spec.ReadTime
import Verif.Proofs.AcceptedSpan
import Verif.Proofs.FaultLoad
import Verif.Props.Accepts

/-
The time of a component that was read is the one that its lines say.
-/
namespace Ics

variable {σ : Type}

/-- The zones that the names stand for while a calendar is read. -/
def zonesOf (w : World) (zones : List (Str × Nat)) (n : Str) (z : Nat) : Prop := w.resolve (some zones) n = some z

theorem zoneFor_resolve {w : World} {n : Str} {zones : List (Str × Nat)} {z : Nat} {ctx : Ctx}
    (h : ZoneFor w n (some zones) z ctx) : zonesOf w zones n z := by
  unfold zonesOf World.resolve
  cases h with
  | known h => simp only [Option.bind_some, h]
  | named h1 h2 => simp only [Option.bind_some, h1, h2]; rfl
  | dateutil h1 h2 h3 => simp only [Option.bind_some, h1, h2]; exact h3

theorem noZone_of_paramTz {p : Params} (h : paramTz p = .ok none) : NoZone p := by
  unfold paramTz at h
  split at h
  · rename_i e; exact .inl e
  · rename_i e; exact .inr (.inl e)
  · rename_i v e
    split at h
    · rename_i hv
      refine .inr (.inr ⟨v.quoted, ?_⟩)
      rw [e]
      obtain ⟨q, t⟩ := v
      cases hv
      rfl
    · cases h
  · cases h

theorem paramTz_some {p : Params} {n : Str} (h : paramTz p = .ok (some n)) :
    ∃ v : PVal, dictGet? p "TZID".toList = some [v] ∧ v.text ≠ [] ∧ n = v.text := by
  unfold paramTz at h
  split at h
  · cases h
  · cases h
  · rename_i v e
    split at h
    · cases h
    · rename_i hv
      injection h with h
      injection h with h
      exact ⟨v, e, hv, h.symm⟩
  · cases h

theorem tzid_erase (p : Params) :
    dictGet? (dictErase p "VALUE".toList) "TZID".toList = dictGet? p "TZID".toList := dictGet_erase_ne _ (by decide)

/-- What a line is read as is what it says. -/
theorem says_of_parse {L : Lib} {cl : ContentLine} {zones : List (Str × Nat)} {v : DT} {prec : Precision} {p : Params}
    {ctx : Ctx} (h : parseSpanValue L cl (some zones) = .ok (v, prec, p, ctx)) :
    SaysTime (zonesOf L.toWorld zones) L.utc cl v prec := by
  unfold parseSpanValue at h
  dsimp only at h
  split at h
  · rename_i hty
    have hd : ¬ IsDate cl := fun k => by
      replace k := (isDate_iff cl).2 k
      rw [hty] at k
      exact absurd k (by decide)
    rw [map_ok_iff] at h
    obtain ⟨⟨d, q, ctx2⟩, h, e⟩ := h
    cases e
    obtain ⟨tz, last, wall, h1, hl, -, hst, hr⟩ := (parseDt_iff _ _ _ _ _ _).1 h
    obtain ⟨y, m, dd, hh, n, s, ht, rfl⟩ := (strptime_wall_iff _ _).1 hst
    rw [stripDt_eq] at ht
    rw [endsInZ_iff hl] at hr
    obtain ⟨hz, -, e⟩ | ⟨hz, rfl, e⟩ | ⟨hz, name, z, ctx', rfl, h2, e⟩ := hr
    · cases e
      exact .utc hd ht hz
    · cases e
      have := noZone_of_paramTz h1
      unfold NoZone at this
      rw [tzid_erase] at this
      exact .floating hd ht hz this
    · cases e
      obtain ⟨v, g1, g2, rfl⟩ := paramTz_some h1
      rw [tzid_erase] at g1
      exact .zoned hd ht hz g1 g2 (zoneFor_resolve ((selectTz_iff _ _ _ _ _).1 h2))
  · split at h
    · rename_i hty
      have hd := (isDate_iff cl).1 hty
      rw [map_ok_iff] at h
      obtain ⟨⟨w, q, ctx2⟩, h, e⟩ := h
      cases e
      unfold parseDate at h
      split at h
      · rename_i dt q2 ctx3 hok
        obtain ⟨tz, last, wall, h1, hl, hf, hst, hr⟩ := (parseDt_iff _ _ _ _ _ _).1 hok
        obtain ⟨y, m, d, hh, n, s, ht, rfl⟩ := (strptime_wall_iff _ _).1 hst
        rw [stripDt_eq] at ht hf
        have hw : dt.wall = clock y m d hh n s := by
          obtain ⟨-, -, hr⟩ | ⟨-, -, hr⟩ | ⟨-, name, z, ctx', -, -, hr⟩ := hr <;>
            · injection hr with e1 e2; rw [e1]
        injection h with h
        injection h with h h'
        subst h
        rw [hw]
        have hlen : (stripped cl.value).length ≤ 8 := by
          simp only [baseFormats, List.mem_cons, List.not_mem_nil, or_false] at hf
          omega
        have hz : hh = 0 ∧ n = 0 ∧ s = 0 := by
          generalize stripped cl.value = sv at ht hlen
          cases ht with
          | month => exact ⟨rfl, rfl, rfl⟩
          | day => exact ⟨rfl, rfl, rfl⟩
          | time hd hds hc htt =>
            exfalso
            obtain ⟨a, b, rfl⟩ := hds.cons
            cases htt <;> simp [four, two] at hlen
        obtain ⟨rfl, rfl, rfl⟩ := hz
        have hday : clock y m d 0 0 0 - clock y m d 0 0 0 % dayUs = clock y m d 0 0 0 := by
          unfold clock
          simp only [dayUs]
          push_cast
          omega
        rw [hday]
        exact .date hd ht hlen
      · cases h
    · cases h

theorem dateTimeText_unique {s : Str} {y m d h n x y' m' d' h' n' x' : Nat} (a : DateTimeText s y m d h n x)
    (b : DateTimeText s y' m' d' h' n' x') : clock y m d h n x = clock y' m' d' h' n' x' := by
  obtain ⟨f, f1, f2⟩ := (strptime_wall_iff s _).2 ⟨_, _, _, _, _, _, a, rfl⟩
  obtain ⟨g, g1, g2⟩ := (strptime_wall_iff s _).2 ⟨_, _, _, _, _, _, b, rfl⟩
  rw [f1] at g1
  cases g1
  rw [f2] at g2
  injection g2

theorem unzoned_text {cl : ContentLine} {v : PVal} (h : Unzoned cl) (k : dictGet? cl.params "TZID".toList = some [v])
    (hv : v.text ≠ []) : False := by
  obtain h | h | ⟨q, h⟩ := h <;> rw [k] at h <;> cases h
  exact hv rfl

/-- A line says one thing only. -/
theorem says_unique {Z : Str → Nat → Prop} (hZ : ∀ n z z', Z n z → Z n z' → z = z') {u : Nat} {cl : ContentLine}
    {d d' : DT} {p p' : Precision} (a : SaysTime Z u cl d p) (b : SaysTime Z u cl d' p') : d = d' ∧ p = p' := by
  cases a with
  | date a1 a2 a3 =>
    cases b with
    | date b1 b2 b3 => exact ⟨by rw [dateTimeText_unique a2 b2], rfl⟩
    | utc b1 => exact absurd a1 b1
    | zoned b1 => exact absurd a1 b1
    | floating b1 => exact absurd a1 b1
  | utc a1 a2 a3 =>
    cases b with
    | date b1 b2 b3 => exact absurd b1 a1
    | utc b1 b2 => exact ⟨by rw [dateTimeText_unique a2 b2], rfl⟩
    | zoned b1 b2 b3 => exact absurd a3 b3
    | floating b1 b2 b3 => exact absurd a3 b3
  | zoned a1 a2 a3 a4 a5 a6 =>
    cases b with
    | date b1 b2 b3 => exact absurd b1 a1
    | utc b1 b2 b3 => exact absurd b3 a3
    | zoned b1 b2 b3 b4 b5 b6 =>
      rw [a4] at b4
      cases b4
      exact ⟨by rw [dateTimeText_unique a2 b2, hZ _ _ _ a6 b6], rfl⟩
    | floating b1 b2 b3 b4 => exact (unzoned_text b4 a4 a5).elim
  | floating a1 a2 a3 a4 =>
    cases b with
    | date b1 b2 b3 => exact absurd b1 a1
    | utc b1 b2 b3 => exact absurd b3 a3
    | zoned b1 b2 b3 b4 b5 b6 => exact (unzoned_text a4 b4 b5).elim
    | floating b1 b2 => exact ⟨by rw [dateTimeText_unique a2 b2], rfl⟩

theorem lastEnd_unique {items : List Item} {a b : ContentLine} (ha : LastEnd items a) (hb : LastEnd items b) : a = b := by
  induction items using List.reverseRecOn with
  | nil =>
    obtain ⟨-, x, y, h, -⟩ := ha
    exact absurd h (by simp)
  | append_singleton pre i ih =>
    rcases lastEnd_snoc ha with ⟨h1, h2⟩ | ⟨h1, h2⟩ <;> rcases lastEnd_snoc hb with ⟨k1, k2⟩ | ⟨k1, k2⟩
    · rw [h1] at k1
      injection k1
    · exact absurd h2 (k2 a h1)
    · exact absurd k2 (h2 b k1)
    · exact ih h1 k1

theorem lastEnd_mem {items : List Item} {a : ContentLine} (h : LastEnd items a) : .line a ∈ items := by
  obtain ⟨-, x, y, rfl, -⟩ := h
  simp

theorem lastEnd_last (pre : List Item) {cl : ContentLine} (h : IsEnd cl) : LastEnd (pre ++ [.line cl]) cl :=
  ⟨h, pre, [], rfl, fun _ h => absurd h List.not_mem_nil⟩

theorem lastEnd_keep {pre : List Item} {cl i : ContentLine} (h : LastEnd pre cl) (hi : ¬ IsEnd i) :
    LastEnd (pre ++ [.line i]) cl := by
  obtain ⟨h1, x, y, rfl, h2⟩ := h
  refine ⟨h1, x, y ++ [.line i], by simp, fun c hc => ?_⟩
  rcases List.mem_append.1 hc with hc | hc
  · exact h2 c hc
  · rw [List.mem_singleton] at hc
    injection hc with hc
    exact hc ▸ hi

theorem isEnd_own {cl : ContentLine} (h : IsEnd cl) : cl.name ∈ Conv.timespan.names := by
  rcases h with h | h <;> rw [h] <;> decide

theorem lastEnd_filter {items : List Item} {P : Item → Bool} (hP : ∀ cl, IsEnd cl → P (.line cl) = true)
    (cl : ContentLine) : LastEnd (items.filter P) cl ↔ LastEnd items cl := by
  have one : ∀ {cl}, LastEnd items cl → LastEnd (items.filter P) cl := by
    rintro cl ⟨h1, x, y, rfl, h2⟩
    refine ⟨h1, x.filter P, y.filter P, ?_, fun c hc => h2 c (List.mem_filter.1 hc).1⟩
    rw [List.filter_append, List.filter_cons_of_pos (hP cl h1)]
  refine ⟨fun h => ?_, one⟩
  obtain ⟨c, hc⟩ := exists_lastEnd items ⟨cl, (List.mem_filter.1 (lastEnd_mem h)).1, h.1⟩
  rw [lastEnd_unique h (one hc)]
  exact hc

/-- What is known after some lines of the time were read. -/
structure Said (T : ContentLine → DT → Precision → Prop) (pre : List Item) (sp : SpanCtx) : Prop where
  seen : ∀ cl, .line cl ∈ pre → cl.name ∈ sp.seen
  lines : ∀ i ∈ pre, ∃ cl, i = .line cl
  once : ∀ n : Str, (pre.filter fun i => i.name = n).length ≤ 1
  begin1 : ∀ d, sp.begin? = some d → ∃ cl p, .line cl ∈ pre ∧ cl.name = "DTSTART".toList ∧ T cl d p
  begin2 : ∀ cl, .line cl ∈ pre → cl.name = "DTSTART".toList → ∃ d p, sp.begin? = some d ∧ T cl d p
  end1 : ∀ d, sp.end? = some d → ∃ cl p, LastEnd pre cl ∧ T cl d p
  end2 : ∀ cl, LastEnd pre cl → ∃ d p, sp.end? = some d ∧ T cl d p ∧
    sp.endName? = some (if cl.name = "DUE".toList then .due else .end_)
  dur1 : ∀ d, sp.dur? = some d → ∃ cl, .line cl ∈ pre ∧ cl.name = "DURATION".toList ∧ durationParse cl.value = .ok d
  dur2 : ∀ cl, .line cl ∈ pre → cl.name = "DURATION".toList → ∃ d, sp.dur? = some d ∧ durationParse cl.value = .ok d
  prec1 : ∀ cl, .line cl ∈ pre → cl.name = "DTSTART".toList ∨ IsEnd cl → ∃ d p, T cl d p ∧ sp.prec? = some p
  prec2 : ∀ p, sp.prec? = some p → ∃ cl, .line cl ∈ pre ∧ (cl.name = "DTSTART".toList ∨ IsEnd cl)

theorem mem_snoc_line {pre : List Item} {cl cl' : ContentLine} (h : .line cl' ∈ pre ++ [.line cl]) :
    .line cl' ∈ pre ∨ cl' = cl := by
  rcases List.mem_append.1 h with h | h
  · exact .inl h
  · rw [List.mem_singleton] at h
    injection h with h
    exact .inr h

theorem Said.new (T : ContentLine → DT → Precision → Prop) : Said T [] {} where
  seen _ h := absurd h List.not_mem_nil
  lines _ h := absurd h List.not_mem_nil
  once _ := Nat.zero_le _
  begin1 _ h := by cases h
  begin2 _ h := absurd h List.not_mem_nil
  end1 _ h := by cases h
  end2 _ h := absurd (lastEnd_mem h) List.not_mem_nil
  dur1 _ h := by cases h
  dur2 _ h := absurd h List.not_mem_nil
  prec1 _ h := absurd h List.not_mem_nil
  prec2 _ h := by cases h

theorem Said.onceStep {T : ContentLine → DT → Precision → Prop} {pre : List Item} {sp : SpanCtx} (S : Said T pre sp)
    {cl : ContentLine} (h : cl.name ∉ sp.seen) (n : Str) :
    ((pre ++ [Item.line cl]).filter fun i => i.name = n).length ≤ 1 := by
  rw [List.filter_append, List.length_append]
  by_cases e : cl.name = n
  · have : (pre.filter fun i => i.name = n) = [] := by
      rw [List.filter_eq_nil_iff]
      intro i hi hn
      obtain ⟨c, rfl⟩ := S.lines i hi
      have hn : c.name = n := of_decide_eq_true hn
      exact h (e.trans hn.symm ▸ S.seen c hi)
    rw [this]
    simp only [List.length_nil, Nat.zero_add]
    exact List.length_filter_le _ _
  · have : ([Item.line cl].filter fun i => i.name = n) = [] := by
      rw [List.filter_eq_nil_iff]
      intro i hi hn
      rw [List.mem_singleton] at hi
      subst hi
      exact e (of_decide_eq_true hn)
    rw [this]
    simpa using S.once n

theorem said_step {L : Lib} {mem : MemberLoad σ} {zones : List (Str × Nat)} {rd : Reading σ}
    (hrd : IsReading L mem (L.toWorld.resolve (some zones)) rd) {cl : ContentLine} {pre : List Item}
    (hn : cl.name ∈ Conv.timespan.names) {a b : Core σ} (h : coreConv L rd .timespan (.line cl) a = .ok b)
    (S : Said (SaysTime (zonesOf L.toWorld zones) L.utc) pre a.span) :
    Said (SaysTime (zonesOf L.toWorld zones) L.utc) (pre ++ [.line cl]) b.span := by
  obtain ⟨hseen, h⟩ := (spanStep_iff (spanReading hrd) hn).1 h
  have hold : ∀ {cl'}, .line cl' ∈ pre → (.line cl' : Item) ∈ pre ++ [.line cl] := fun h => List.mem_append_left _ h
  have hnew : (.line cl : Item) ∈ pre ++ [.line cl] := List.mem_append_right _ (List.mem_singleton.2 rfl)
  have hlines : ∀ i ∈ pre ++ [Item.line cl], ∃ cl, i = .line cl := by
    intro i hi
    rcases List.mem_append.1 hi with hi | hi
    · exact S.lines i hi
    · exact ⟨cl, List.mem_singleton.1 hi⟩
  have hseen' : ∀ cl', .line cl' ∈ pre ++ [.line cl] → cl'.name ∈ a.span.seen ++ [cl.name] := by
    intro cl' h1
    rcases mem_snoc_line h1 with h1 | rfl
    · exact List.mem_append_left _ (S.seen cl' h1)
    · simp
  split at h
  · rename_i hdur
    obtain ⟨d, hd, rfl⟩ := h
    have hd := read_spanDur hrd hdur hd
    have hne : ¬ IsEnd cl := by
      unfold IsEnd
      rw [hdur]
      decide
    have hns : cl.name ≠ "DTSTART".toList := by rw [hdur]; decide
    refine ⟨hseen', hlines, S.onceStep hseen, ?_, ?_, ?_, ?_, ?_, ?_, ?_, ?_⟩
    · intro d h
      obtain ⟨c, p, h1, h2⟩ := S.begin1 d h
      exact ⟨c, p, hold h1, h2⟩
    · intro c h1 h2
      rcases mem_snoc_line h1 with h1 | rfl
      · exact S.begin2 c h1 h2
      · exact absurd h2 hns
    · intro d h
      obtain ⟨c, p, h1, h2⟩ := S.end1 d h
      exact ⟨c, p, lastEnd_keep h1 hne, h2⟩
    · intro c h1
      rcases lastEnd_snoc h1 with ⟨e, h1⟩ | ⟨h1, -⟩
      · injection e with e
        exact absurd (e ▸ h1) hne
      · exact S.end2 c h1
    · intro d' h
      injection h with h
      subst h
      exact ⟨cl, hnew, hdur, hd⟩
    · intro c h1 h2
      rcases mem_snoc_line h1 with h1 | rfl
      · exact absurd (hdur ▸ h2 ▸ S.seen c h1 : cl.name ∈ a.span.seen) hseen
      · exact ⟨d, rfl, hd⟩
    · intro c h1 h2
      rcases mem_snoc_line h1 with h1 | rfl
      · exact S.prec1 c h1 h2
      · exact absurd h2 (not_or.2 ⟨hns, hne⟩)
    · intro p h
      obtain ⟨c, h1, h2⟩ := S.prec2 p h
      exact ⟨c, hold h1, h2⟩
  · rename_i hdur
    obtain ⟨v, prec, p, hd, hprec, rfl⟩ := h
    obtain ⟨ctx', hv⟩ := read_spanTime hrd hdur hd
    have hT := says_of_parse hv
    have htimed : cl.name = "DTSTART".toList ∨ IsEnd cl := by
      rcases spanNames hn with n | n | n | n
      · exact .inl n
      · exact .inr (.inl n)
      · exact .inr (.inr n)
      · exact absurd n hdur
    have p1 : ∀ c, .line c ∈ pre ++ [.line cl] → c.name = "DTSTART".toList ∨ IsEnd c →
        ∃ d q, SaysTime (zonesOf L.toWorld zones) L.utc c d q ∧ some prec = some q := by
      intro c h1 h2
      rcases mem_snoc_line h1 with h1 | rfl
      · obtain ⟨d, q, g1, g2⟩ := S.prec1 c h1 h2
        exact ⟨d, q, g1, congrArg some (hprec q g2).symm⟩
      · exact ⟨v, prec, hT, rfl⟩
    have p2 : ∀ q, some prec = some q → ∃ c, .line c ∈ pre ++ [.line cl] ∧ (c.name = "DTSTART".toList ∨ IsEnd c) :=
      fun _ _ => ⟨cl, hnew, htimed⟩
    have d1 : ∀ d, a.span.dur? = some d →
        ∃ c, .line c ∈ pre ++ [.line cl] ∧ c.name = "DURATION".toList ∧ durationParse c.value = .ok d := by
      intro d h
      obtain ⟨c, h1, h2⟩ := S.dur1 d h
      exact ⟨c, hold h1, h2⟩
    have d2 : ∀ c, .line c ∈ pre ++ [.line cl] → c.name = "DURATION".toList →
        ∃ d, a.span.dur? = some d ∧ durationParse c.value = .ok d := by
      intro c h1 h2
      rcases mem_snoc_line h1 with h1 | rfl
      · exact S.dur2 c h1 h2
      · exact absurd h2 hdur
    by_cases hs : cl.name = "DTSTART".toList
    · have hne : ¬ IsEnd cl := by
        unfold IsEnd
        rw [hs]
        decide
      refine ⟨hseen', hlines, S.onceStep hseen, ?_, ?_, ?_, ?_, d1, d2, p1, p2⟩
      · intro d h
        replace h : (if cl.name = "DTSTART".toList then some v else a.span.begin?) = some d := h
        rw [if_pos hs] at h
        injection h with h
        subst h
        exact ⟨cl, prec, hnew, hs, hT⟩
      · intro c h1 h2
        rcases mem_snoc_line h1 with h1 | rfl
        · exact absurd (hs ▸ h2 ▸ S.seen c h1 : cl.name ∈ a.span.seen) hseen
        · exact ⟨v, prec, if_pos hs, hT⟩
      · intro d h
        replace h : (if cl.name = "DTSTART".toList then a.span.end? else some v) = some d := h
        rw [if_pos hs] at h
        obtain ⟨c, p, h1, h2⟩ := S.end1 d h
        exact ⟨c, p, lastEnd_keep h1 hne, h2⟩
      · intro c h1
        rcases lastEnd_snoc h1 with ⟨e, h1⟩ | ⟨h1, -⟩
        · injection e with e
          exact absurd (e ▸ h1) hne
        · obtain ⟨d, q, g1, g2, g3⟩ := S.end2 c h1
          exact ⟨d, q, (if_pos hs).trans g1, g2, (if_pos hs).trans g3⟩
    · have he := htimed.resolve_left hs
      refine ⟨hseen', hlines, S.onceStep hseen, ?_, ?_, ?_, ?_, d1, d2, p1, p2⟩
      · intro d h
        replace h : (if cl.name = "DTSTART".toList then some v else a.span.begin?) = some d := h
        rw [if_neg hs] at h
        obtain ⟨c, p, h1, h2⟩ := S.begin1 d h
        exact ⟨c, p, hold h1, h2⟩
      · intro c h1 h2
        rcases mem_snoc_line h1 with h1 | rfl
        · obtain ⟨d, q, g1, g2⟩ := S.begin2 c h1 h2
          exact ⟨d, q, (if_neg hs).trans g1, g2⟩
        · exact absurd h2 hs
      · intro d h
        replace h : (if cl.name = "DTSTART".toList then a.span.end? else some v) = some d := h
        rw [if_neg hs] at h
        injection h with h
        subst h
        exact ⟨cl, prec, lastEnd_last pre he, hT⟩
      · intro c h1
        have : c = cl := lastEnd_unique h1 (lastEnd_last pre he)
        subst this
        exact ⟨v, prec, if_neg hs, hT, if_neg hs⟩

theorem said_fold {L : Lib} {mem : MemberLoad σ} {zones : List (Str × Nat)} {rd : Reading σ}
    (hrd : IsReading L mem (L.toWorld.resolve (some zones)) rd) {items pre : List Item}
    (hn : ∀ i ∈ items, i.name ∈ Conv.timespan.names) {a b : Core σ} (h : foldConv L rd .timespan items a = .ok b)
    (S : Said (SaysTime (zonesOf L.toWorld zones) L.utc) pre a.span) :
    Said (SaysTime (zonesOf L.toWorld zones) L.utc) (pre ++ items) b.span := by
  induction items generalizing a pre with
  | nil =>
    cases h
    rw [List.append_nil]
    exact S
  | cons i is ih =>
    simp only [foldConv, bind_ok_iff] at h
    obtain ⟨a1, h1, h2⟩ := h
    obtain ⟨cl, rfl⟩ := spanItem_line h1
    have := ih (fun i hi => hn i (List.mem_cons_of_mem _ hi)) h2 (said_step hrd (hn _ List.mem_cons_self) h1 S)
    rwa [List.append_assoc] at this

theorem zonesOf_unique {w : World} {zones : List (Str × Nat)} (n : Str) (z z' : Nat) (h : zonesOf w zones n z)
    (h' : zonesOf w zones n z') : z = z' := by
  unfold zonesOf at h h'
  rw [h] at h'
  injection h'

/-- The time of a component that was read. -/
theorem load_time {L : Lib} {mem : MemberLoad σ} (hmem : MemStable L mem) {c : Cls} {items : List Item}
    {zones : List (Str × Nat)} {o : Obj σ} {ctx1 : Ctx} (h : loadObj L mem c items (some zones) = .ok (o, ctx1))
    (hc : .timespan ∈ c.convs) :
    ∃ sp, dictGet? o.attrs "timespan".toList = some (.one (.span sp)) ∧ sp.cls = c.spanCls ∧
      L.validate sp = .ok () ∧ TimeSaid (zonesOf L.toWorld zones) L.utc items sp := by
  obtain ⟨rd, b, hrd, hb, hget, hval, hend, -⟩ := load_span hmem h hc
  have S := said_fold (pre := []) hrd (fun i hi => of_decide_eq_true (List.mem_filter.1 hi).2) hb (Said.new _)
  rw [List.nil_append] at S
  have hown : ∀ {cl : ContentLine}, cl.name ∈ Conv.timespan.names → .line cl ∈ items →
      (.line cl : Item) ∈ Conv.own .timespan items := fun h1 h2 => List.mem_filter.2 ⟨h2, decide_eq_true h1⟩
  have hin : ∀ {cl : ContentLine}, .line cl ∈ Conv.own .timespan items → (.line cl : Item) ∈ items :=
    fun h => (List.mem_filter.1 h).1
  have hlast : ∀ cl, LastEnd (Conv.own .timespan items) cl ↔ LastEnd items cl :=
    lastEnd_filter fun cl h => decide_eq_true (isEnd_own h)
  have htimed : ∀ {cl : ContentLine}, cl.name = "DTSTART".toList ∨ IsEnd cl → cl.name ∈ Conv.timespan.names := by
    rintro cl (h | h)
    · rw [h]; decide
    · exact isEnd_own h
  refine ⟨_, hget, rfl, hval, ?_, ?_, ?_, ?_, ?_, ?_, ?_, ?_⟩
  · refine fun d => ⟨fun h => ?_, fun ⟨cl, p, h1, h2, h3⟩ => ?_⟩
    · obtain ⟨cl, p, h1, h2⟩ := S.begin1 d h
      exact ⟨cl, p, hin h1, h2⟩
    · obtain ⟨d', p', g1, g2⟩ := S.begin2 cl (hown (htimed (.inl h2)) h1) h2
      rw [(says_unique zonesOf_unique h3 g2).1]
      exact g1
  · refine fun d => ⟨fun h => ?_, fun ⟨cl, p, h1, h3⟩ => ?_⟩
    · obtain ⟨cl, p, h1, h2⟩ := S.end1 d h
      exact ⟨cl, p, (hlast cl).1 h1, h2⟩
    · obtain ⟨d', p', g1, g2, -⟩ := S.end2 cl ((hlast cl).2 h1)
      rw [(says_unique zonesOf_unique h3 g2).1]
      exact g1
  · intro cl h1
    obtain ⟨-, -, -, -, g⟩ := S.end2 cl ((hlast cl).2 h1)
    rw [g] at hend
    show cl.name = endLine c.spanCls
    rcases h1.1 with e | e
    · rw [e] at hend ⊢
      cases hcc : c.spanCls <;> rw [hcc] at hend
      · rfl
      · rfl
      · exact absurd hend (by decide)
    · rw [e] at hend ⊢
      cases hcc : c.spanCls <;> rw [hcc] at hend
      · exact absurd hend (by decide)
      · exact absurd hend (by decide)
      · rfl
  · refine fun us => ⟨fun h => ?_, fun ⟨cl, v, h1, h2, h3, h4⟩ => ?_⟩
    · obtain ⟨cl, h1, h2, h3⟩ := S.dur1 us h
      obtain ⟨v, g1, g2, -⟩ := (C76_duration _ _).1 h3
      exact ⟨cl, v, hin h1, h2, g1, g2⟩
    · obtain ⟨d, g1, g2⟩ := S.dur2 cl (hown (by rw [h2]; decide) h1) h2
      obtain ⟨v', k1, k2, -⟩ := (C76_duration _ _).1 g2
      rw [h4, C76_duration_unique _ _ _ h3 k1, ← k2]
      exact g1
  · intro cl d p h1 h2 h3
    obtain ⟨d', p', g1, g2⟩ := S.prec1 cl (hown (htimed h2) h1) h2
    show b.span.prec?.getD _ = _
    rw [g2, (says_unique zonesOf_unique h3 g1).2]
    rfl
  · intro hno
    show b.span.prec?.getD _ = _
    cases hp : b.span.prec? with
    | none => rfl
    | some p =>
      obtain ⟨cl, h1, h2⟩ := S.prec2 p hp
      exact absurd h2 (hno cl (hin h1))
  · intro n hn
    have := S.once n
    unfold Conv.own at this
    rw [List.filter_filter] at this
    refine (Nat.le_of_eq (congrArg List.length (List.filter_congr fun i _ => ?_))).trans this
    by_cases e : i.name = n
    · have : i.name ∈ Conv.timespan.names := e ▸ hn
      simp [e, this]
      exact e ▸ this
    · simp [e]
  · intro cl h1 h2
    obtain ⟨d, p, g, -⟩ := S.prec1 cl (hown (htimed h2) h1) h2
    exact ⟨d, p, g⟩

end Ics
