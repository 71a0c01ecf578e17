import Verif.Spec.Whole
import Verif.Proofs.NeededTime
import Verif.Proofs.Survive
import Verif.Proofs.ReadParts

/-
Events and todos that survive.
-/
namespace Ics

variable {σ : Type}

theorem standard_alarm {c : Cls} (h : c ∈ [Cls.audioAlarm, .customAlarm, .displayAlarm, .emailAlarm, .noneAlarm])
    (hc : c ≠ .customAlarm) : c ∈ [Cls.audioAlarm, .displayAlarm, .emailAlarm, .noneAlarm] := by
  revert h hc
  cases c <;> decide

/-! ### The zones of a component -/

def tzNums : Option Tz → List Nat
  | some (.zone n) => [n]
  | _ => []

def dtNums : Option DT → List Nat
  | some d => tzNums d.tz
  | none => []

def valNums : Val σ → List Nat
  | .dt d => tzNums d.tz
  | .span s => dtNums s.begin? ++ dtNums s.end?
  | _ => []

def attrNums : AttrVal σ → List Nat
  | .none => []
  | .one v => valNums v
  | .many l => l.flatMap valNums

def objNums (o : Obj σ) : List Nat := o.attrs.flatMap fun kv => attrNums kv.2

theorem mem_objNums {o : Obj σ} {a : Str} {n : Nat} (h : n ∈ attrNums (o.get a)) : n ∈ objNums o := by
  unfold Obj.get at h
  cases e : dictGet? o.attrs a with
  | none => rw [e] at h; cases h
  | some v =>
    rw [e] at h
    exact List.mem_flatMap.2 ⟨_, mem_of_dictGet e, h⟩

def compNums : Val Alarm → List Nat
  | .comp m => objNums m
  | _ => []

def entryNums (o : EntryObj) : List Nat :=
  objNums o ++ (match o.get "alarms".toList with
    | .many l => l.flatMap compNums
    | _ => [])

/-- The zones that the reader knows. -/
def knownZones (L : Lib) (zones : List (Str × Nat)) (ns : List Nat) : List (Str × Nat) :=
  (ns.filter fun n => decide (L.conv (.zone n) = .timezone n ∧ L.toWorld.resolve (some zones) (L.tzid n) = some n)).map fun n => (L.tzid n, n)

theorem known_knows {L : Lib} {zones : List (Str × Nat)} {ns : List Nat} {t : Str} {z : Nat}
    (h : dictGet? (knownZones L zones ns) t = some z) : L.conv (.zone z) = .timezone z ∧ Knows L zones t z := by
  obtain ⟨n, hn, e⟩ := List.mem_map.1 (mem_of_dictGet h)
  cases e
  have := of_decide_eq_true (List.mem_filter.1 hn).2
  exact ⟨this.1, knows_iff.2 this.2⟩

theorem known_get {L : Lib} {zones : List (Str × Nat)} {ns : List Nat} {n : Nat} (hn : n ∈ ns)
    (hc : L.conv (.zone n) = .timezone n) (hk : Knows L zones (L.tzid n) n) : dictGet? (knownZones L zones ns) (L.tzid n) = some n := by
  cases e : dictGet? (knownZones L zones ns) (L.tzid n) with
  | none =>
    exfalso
    refine dictGet_eq_none.1 e ?_
    rw [List.mem_map]
    exact ⟨(L.tzid n, n), List.mem_map.2 ⟨n, List.mem_filter.2 ⟨hn, decide_eq_true ⟨hc, knows_iff.1 hk⟩⟩, rfl⟩, rfl⟩
  | some z =>
    have h1 := knows_iff.1 (known_knows e).2
    rw [knows_iff.1 hk] at h1
    exact h1.symm

/-! ### Sufficiency -/

section
variable {L : Lib} {zones : List (Str × Nat)} {ns : List Nat}

theorem rep_zone (hZ : ∀ n z, L.conv (.zone n) = .timezone z → Knows L zones (L.tzid z) n → z = n) {tz : Option Tz}
    (h : KeptZone L zones tz) (hn : ∀ n ∈ tzNums tz, n ∈ ns) : RepZone L (knownZones L zones ns) tz := by
  match tz, h with
  | none, _ => trivial
  | some (.zone n), h =>
    rcases h with h | ⟨z, h1, h2, h3⟩
    · exact .inl h
    · obtain rfl := hZ n z h1 h3
      exact .inr ⟨h1, h2, known_get (hn _ (List.mem_singleton_self _)) h1 h3⟩

theorem rep_time (hZ : ∀ n z, L.conv (.zone n) = .timezone z → Knows L zones (L.tzid z) n → z = n) {d : DT}
    (h : KeptTime L zones d) (hr : 0 ≤ d.wall ∧ d.wall < maxWall) (hn : ∀ n ∈ tzNums d.tz, n ∈ ns) :
    RepTime L (knownZones L zones ns) d :=
  ⟨h.1, h.2.1, hr.1, hr.2, h.2.2.1, rep_zone hZ h.2.2.2 hn⟩

theorem rep_val (hF : ∀ x, ';' ∉ L.formatFloat x)
    (hZ : ∀ n z, L.conv (.zone n) = .timezone z → Knows L zones (L.tzid z) n → z = n) {c : ValConv} {v : Val σ}
    (h : Kept L zones c v) (hv : PyVal v) (hn : ∀ n ∈ valNums v, n ∈ ns)
    (hp : ∀ att e extra, v = .person att e extra → "VALUE".toList ∉ extra.map Prod.fst) :
    RepVal L (knownZones L zones ns) c v := by
  cases h with
  | text s => trivial
  | uri h => exact (url_kept L _).2 h
  | binary b => trivial
  | datetime h => exact rep_time hZ h hv hn
  | duration h => exact ⟨h, hv⟩
  | integer h => exact h
  | boolean b => trivial
  | geo h1 h2 => exact ⟨h1, h2, hF _⟩
  | organizer x h => exact ⟨(url_kept L _).2 h, hv, hp _ _ _ rfl⟩
  | attendee x h => exact ⟨(url_kept L _).2 h, hv, hp _ _ _ rfl⟩

theorem rep_single (hF : ∀ x, ';' ∉ L.formatFloat x)
    (hZ : ∀ n z, L.conv (.zone n) = .timezone z → Knows L zones (L.tzid z) n → z = n) {o : Obj σ} (ho : Made L o)
    (hn : ∀ n ∈ objNums o, n ∈ ns) {s : AttrSpec} (hs : .value s ∈ o.cls.convs) (h : KeptSingle L zones o s) :
    RepSingle L (knownZones L zones ns) o s := by
  unfold KeptSingle at h
  unfold RepSingle
  have hp : dictGet? o.extraParams (upper s.attr) = none := by rw [ho.params]; rfl
  cases e : o.get s.attr with
  | none =>
    rw [e] at h
    exact ⟨hp, h⟩
  | one v =>
    rw [e] at h
    obtain ⟨c, h1, h2, h3⟩ := h
    obtain ⟨k1, k2⟩ := ho.one s v hs e
    refine ⟨c, h1, rep_val hF hZ h2 k1 (fun n h => hn n (mem_objNums (a := s.attr) ?_)) h3, k2, ?_, fun _ => hp⟩
    · rw [e]; exact h
    · rw [hp]; trivial
  | many l =>
    rw [e] at h
    exact h.elim

theorem rep_multi (hF : ∀ x, ';' ∉ L.formatFloat x)
    (hZ : ∀ n z, L.conv (.zone n) = .timezone z → Knows L zones (L.tzid z) n → z = n) {o : Obj σ} (ho : Made L o)
    (hn : ∀ n ∈ objNums o, n ∈ ns) {s : AttrSpec} (hs : .value s ∈ o.cls.convs) (h : KeptList L zones o s) :
    RepMulti L (knownZones L zones ns) o s := by
  obtain ⟨l, e, h⟩ := h
  refine ⟨l.map fun v => ([], [v]), ?_, ?_, .inl ⟨by rw [ho.params]; rfl, ?_⟩⟩
  · intro g hg
    obtain ⟨v, hv, rfl⟩ := List.mem_map.1 hg
    obtain ⟨c, h1, h2, h3, h4⟩ := h v hv
    obtain ⟨k1, k2⟩ := ho.many s l hs e v hv
    have hp : ∀ att em extra, v = .person att em extra → "VALUE".toList ∉ extra.map Prod.fst := by
      intro att em extra ev
      subst ev
      cases h2 with
      | organizer x hx => exact (h4 _ _ _ rfl).2
      | attendee x hx => exact (h4 _ _ _ rfl).2
    refine ⟨List.cons_ne_nil _ _, List.nodup_nil, ⟨List.not_mem_nil, List.not_mem_nil⟩, ⟨c, ?_⟩, ?_, ?_⟩
    · intro w hw
      obtain rfl := List.mem_singleton.1 hw
      refine ⟨h1, rep_val hF hZ h2 k1 (fun n h => hn n (mem_objNums (a := s.attr) ?_)) hp⟩
      rw [e]
      exact List.mem_flatMap.2 ⟨_, hv, h⟩
    · intro u hu
      exact h3 u (List.mem_singleton.1 hu).symm
    · intro a u x hu
      have ev := (List.mem_singleton.1 hu).symm
      exact ⟨(h4 a u x ev).1, k2 _ _ _ ev, rfl, rfl⟩
  · rw [e, List.map_map]
    exact congrArg _ (flatten_singletons l).symm
  · intro g hg
    obtain ⟨v, hv, rfl⟩ := List.mem_map.1 hg
    exact ⟨rfl, rfl⟩

theorem rep_span (hZ : ∀ n z, L.conv (.zone n) = .timezone z → Knows L zones (L.tzid z) n → z = n) {o : Obj σ}
    (ho : Made L o) (hn : ∀ n ∈ objNums o, n ∈ ns) {s : Span} (e : o.get "timespan".toList = .one (.span s))
    (h : KeptSpan L zones o s) : RepSpan L (knownZones L zones ns) o s := by
  obtain ⟨k1, k2, k3⟩ := ho.span s e
  have hp : ∀ k, dictGet? o.extraParams k = none := fun k => by rw [ho.params]; rfl
  have hns : ∀ n ∈ dtNums s.begin? ++ dtNums s.end?, n ∈ ns := fun n h => hn n (mem_objNums (a := "timespan".toList) (by
    rw [e]; exact h))
  have ht : ∀ d, s.begin? = some d ∨ s.end? = some d → RepTime L (knownZones L zones ns) d := by
    intro d hd
    have hd' := h.times d hd
    have hr := k1 d hd
    split at hd'
    · obtain ⟨h1, h2, h3, h4⟩ := hd'
      exact ⟨by omega, h2, hr.1, hr.2, h3, by rw [h4]; trivial⟩
    · refine rep_time hZ hd' hr fun n h => hns n ?_
      rcases hd with hd | hd
      · exact List.mem_append_left _ (by rw [hd]; exact h)
      · exact List.mem_append_right _ (by rw [hd]; exact h)
  refine ⟨e, h.cls, k2, ?_, fun d hd => ht d (.inl hd), fun d hd => ht d (.inr hd), fun us hu =>
    ⟨(h.dur us hu).1, k3 us hu⟩, ?_, ⟨hp _, hp _⟩, ?_, ?_⟩
  · have := h.prec
    split at this
    · rename_i hno
      exact .inr ⟨hno.1, hno.2, this⟩
    · rename_i hno
      refine .inl ⟨?_, this⟩
      cases hb : s.begin? with
      | some d => exact .inl rfl
      | none =>
        cases he : s.end? with
        | some d => exact .inr rfl
        | none => exact absurd ⟨hb, he⟩ hno
  · rw [hp]; exact ⟨trivial, fun _ => rfl⟩
  · rw [hp]; exact ⟨trivial, fun _ => rfl⟩
  · rw [hp]; exact ⟨trivial, fun _ => rfl⟩

theorem rep_obj (hF : ∀ x, ';' ∉ L.formatFloat x)
    (hZ : ∀ n z, L.conv (.zone n) = .timezone z → Knows L zones (L.tzid z) n → z = n) {o : Obj σ} {M : σ → Prop}
    {M' : Str → σ → Prop} (hc : o.cls ≠ .customAlarm) (ho : Made L o) (hn : ∀ n ∈ objNums o, n ∈ ns)
    (h : KeptObj L zones M o)
    (hM : ∀ a n, .member a n ∈ o.cls.convs → ∀ ms : List σ, o.get a = .many (ms.map .comp) → ∀ m ∈ ms, M m → M' a m) :
    RepObj L (knownZones L zones ns) M' o where
  cls := hc
  name := h.name
  extra := h.extra
  single s hs hm := rep_single hF hZ ho hn hs (h.single s hs hm)
  multi s hs hm := rep_multi hF hZ ho hn hs (h.multi s hs hm)
  members a n hcv := by
    obtain ⟨ms, e, hms⟩ := h.members a n hcv
    exact ⟨by rw [ho.params]; rfl, ms, e, fun m hm => hM a n hcv ms e m hm (hms m hm)⟩
  time ht := by
    obtain ⟨s, e, hs⟩ := h.time ht
    exact ⟨s, rep_span hZ ho hn e hs⟩
  action _ := by rw [ho.params]; trivial

theorem rep_entry (hF : ∀ x, ';' ∉ L.formatFloat x)
    (hZ : ∀ n z, L.conv (.zone n) = .timezone z → Knows L zones (L.tzid z) n → z = n) {o : EntryObj}
    (ho : MadeEntry L o) (hn : ∀ n ∈ entryNums o, n ∈ ns) (h : KeptEntry L zones o) : RepEntry L (knownZones L zones ns) o := by
  obtain ⟨hc, ho, hal⟩ := ho
  obtain ⟨-, c2, c3⟩ := entry_convs hc
  refine ⟨hc, rep_obj hF hZ c2 ho (fun n h => hn n (List.mem_append_left _ h)) h ?_⟩
  intro a n hcv ms e m hm hk
  obtain ⟨rfl, -⟩ := c3 _ hcv a n rfl
  obtain ⟨k1, k2⟩ := hal ms e m hm
  have k1 := standard_alarm k1 hk.1
  refine ⟨k1, rep_obj hF hZ ?_ k2 (fun n h => ?_) hk.2 ?_⟩
  · intro e'
    rw [e'] at k1
    revert k1
    decide
  · refine hn n (List.mem_append_right _ ?_)
    rw [e]
    exact List.mem_flatMap.2 ⟨_, List.mem_map.2 ⟨m, hm, rfl⟩, h⟩
  · intro a n hcv
    exact absurd rfl ((alarm_convs k1).2.2.2.2 _ hcv a n)

end

/-! ### Necessity -/

theorem kept_alarm {L : Lib} (hU : UtcOk L) (hF : ∀ x, ';' ∉ L.formatFloat x) {o o' : Alarm} {st st' : DState} {n : Str}
    {items : List Item} {zones : List (Str × Nat)} {ctx : Ctx} (hc : o.cls ∈ [Cls.audioAlarm, .displayAlarm, .emailAlarm, .noneAlarm])
    (ho : Made L o) (h1 : dumpAlarm L o st = .ok (.cont n items, st'))
    (h2 : loadAlarm L items (some zones) = .ok (o', ctx)) (h3 : SameAlarm L o o') : KeptAlarm L zones o := by
  refine ⟨by rintro e; rw [e] at hc; revert hc; decide, ?_⟩
  obtain ⟨-, c2, -, -, c5⟩ := alarm_convs hc
  simp only [loadAlarm, bind_ok_iff] at h2
  obtain ⟨i, _, h2⟩ := h2
  cases i with
  | cont _ _ => cases h2
  | line cl =>
    dsimp only at h2
    have hc : alarmCls cl.value = o.cls := by rw [h3.cls, (loadObj_frame h2).1]
    rw [hc] at h2
    obtain ⟨-, k2, k3⟩ := loadObj_frame h2
    have hp : ∀ k, dictGet? o.extraParams k = none := fun k => by rw [ho.params]; rfl
    refine ⟨h3.extraName.trans k2, fun i hi => ?_, ?_, ?_, fun a n hcv => absurd rfl (c5 _ hcv a n), fun h => absurd h c2⟩
    · rw [h3.extra, k3] at hi
      exact (List.mem_filter.1 hi).2
    · intro s hs hm
      refine single_needed (R := fun _ _ => False) hU hF (noMembers_stable L) h1 h2 hs hm (hp _)
        (fun v e => (ho.one s v hs e).1) ?_
      obtain ⟨k, hk, e⟩ := single_listed o.cls s hs
      rw [← e]
      exact h3.attrs k hk
    · intro s hs hm
      refine multi_needed (R := fun _ _ => False) hF (noMembers_stable L) h1 h2 hs hm (hp _)
        (fun l e v hv => (ho.many s l hs e v hv).1) ?_
      obtain ⟨k, hk, e⟩ := single_listed o.cls s hs
      rw [← e]
      exact h3.attrs k hk

end Ics
