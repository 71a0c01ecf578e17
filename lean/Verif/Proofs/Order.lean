import Verif.Proofs.Duplicate
import Verif.Proofs.ItemEq

/-
The order of the lines of a component does not matter.
-/
namespace Ics

variable {σ : Type}

/-! ### The lines of a timespan -/

/-- The name under which the parameters of a line are stored. -/
def spanKey (n : Str) : Str :=
  if n = "DTSTART".toList then "begin".toList
  else if n = "DUE".toList then "due".toList
  else if n = "DURATION".toList then "duration".toList
  else "end".toList

/-- Storing a time that has been checked. -/
def Core.timed (n : Str) (v : DT) (prec : Precision) (p : Params) (c : Core σ) : Core σ :=
  { c with
    obj := c.obj.setExtraParams (spanKey n) p
    span :=
      { seen := c.span.seen ++ [n]
        prec? := some prec
        dur? := c.span.dur?
        begin? := if n = "DTSTART".toList then some v else c.span.begin?
        end? := if n = "DTSTART".toList then c.span.end? else some v
        endName? := if n = "DTSTART".toList then c.span.endName?
          else some (if n = "DUE".toList then .due else .end_) } }

/-- The readings of DURATION lines are durations, the others are times. -/
def SpanReading (rd : Reading σ) : Prop :=
  ∀ cl d, rd .timespan (.line cl) = .ok d →
    if cl.name = "DURATION".toList then ∃ x, d = .spanDur x else ∃ v prec p, d = .spanTime v prec p

theorem spanReading {L : Lib} {mem : MemberLoad σ} {zones : List (Str × Nat)} {rd : Reading σ}
    (h : IsReading L mem (L.toWorld.resolve (some zones)) rd) : SpanReading rd := by
  intro cl d hd
  have q := h .timespan (.line cl) (some zones) rfl rfl
  unfold Outcome at q
  rw [hd] at q
  obtain ⟨ctx', q, _⟩ := q
  simp only [readConv] at q
  split at q
  · rename_i hn
    rw [if_pos hn]
    rw [bind_ok_iff] at q
    obtain ⟨x, _, q⟩ := q
    cases q
    exact ⟨_, rfl⟩
  · rename_i hn
    rw [if_neg hn]
    rw [bind_ok_iff] at q
    obtain ⟨x, _, q⟩ := q
    cases q
    exact ⟨_, _, _, rfl⟩

/-- One line of a timespan. -/
theorem spanStep_iff {L : Lib} {rd : Reading σ} (hrd : SpanReading rd) {cl : ContentLine}
    (hn : cl.name ∈ Conv.timespan.names) {a b : Core σ} :
    coreConv L rd .timespan (.line cl) a = .ok b ↔
      cl.name ∉ a.span.seen ∧
        if cl.name = "DURATION".toList then
          ∃ d, rd .timespan (.line cl) = .ok (.spanDur d) ∧ b = storeSpanDur cl d a
        else ∃ v prec p, rd .timespan (.line cl) = .ok (.spanTime v prec p) ∧
          (∀ q, a.span.prec? = some q → q = prec) ∧ b = a.timed cl.name v prec p := by
  simp only [coreConv, preConv, bind_ok_iff]
  constructor
  · rintro ⟨_, h1, d, hd, h⟩
    rw [raiseIf_ok, decide_eq_false_iff_not] at h1
    refine ⟨h1, ?_⟩
    have k := hrd cl d hd
    split
    · rename_i e
      rw [if_pos e] at k
      obtain ⟨x, rfl⟩ := k
      cases h
      exact ⟨x, hd, rfl⟩
    · rename_i e
      rw [if_neg e] at k
      obtain ⟨v, prec, p, rfl⟩ := k
      refine ⟨v, prec, p, hd, ?_⟩
      simp only [storeConv, storeSpanTime, bind_ok_iff] at h
      obtain ⟨_, h2, h⟩ := h
      rw [raiseIf_ok, decide_eq_false_iff_not, not_not] at h2
      refine ⟨fun q hq => by rw [hq] at h2; exact h2, ?_⟩
      rw [h2] at h
      unfold Core.timed
      split at h
      · rename_i e
        cases h
        rw [e]
        rfl
      · rename_i e'
        cases h
        simp only [spanKey, e, e', if_false]
  · rintro ⟨h1, h⟩
    refine ⟨(), by rw [raiseIf_ok, decide_eq_false_iff_not]; exact h1, ?_⟩
    split at h
    · obtain ⟨d, hd, rfl⟩ := h
      exact ⟨_, hd, rfl⟩
    · rename_i e
      obtain ⟨v, prec, p, hd, hq, rfl⟩ := h
      refine ⟨_, hd, ?_⟩
      have h2 : a.span.prec?.getD prec = prec := by
        cases hp : a.span.prec? with
        | none => rfl
        | some q => exact hq q hp
      simp only [storeConv, storeSpanTime, bind_ok_iff]
      refine ⟨(), by rw [raiseIf_ok, decide_eq_false_iff_not, not_not]; exact h2, ?_⟩
      rw [h2]
      unfold Core.timed
      split
      · rename_i e
        rw [e]
        rfl
      · rename_i e'
        simp only [spanKey, e, e', if_false]

/-- Two states with the same timespan data; the order in which the lines came does not matter. -/
structure SpanAgree (a b : Core σ) : Prop where
  cls : a.obj.cls = b.obj.cls
  attrs : dictGet? a.obj.attrs "timespan".toList = dictGet? b.obj.attrs "timespan".toList
  params : ∀ k, dictGet? a.obj.extraParams k = dictGet? b.obj.extraParams k
  begin_ : a.span.begin? = b.span.begin?
  end_ : a.span.end? = b.span.end?
  dur : a.span.dur? = b.span.dur?
  prec : a.span.prec? = b.span.prec?
  endName : a.span.endName? = b.span.endName?
  seen : ∀ n, n ∈ a.span.seen ↔ n ∈ b.span.seen

theorem SpanAgree.refl (a : Core σ) : SpanAgree a a :=
  ⟨rfl, rfl, fun _ => rfl, rfl, rfl, rfl, rfl, rfl, fun _ => Iff.rfl⟩

theorem SpanAgree.trans {a b c : Core σ} (h : SpanAgree a b) (k : SpanAgree b c) : SpanAgree a c :=
  ⟨h.cls.trans k.cls, h.attrs.trans k.attrs, fun x => (h.params x).trans (k.params x), h.begin_.trans k.begin_,
    h.end_.trans k.end_, h.dur.trans k.dur, h.prec.trans k.prec, h.endName.trans k.endName,
    fun n => (h.seen n).trans (k.seen n)⟩

theorem dictGet_setExtraParams_eq (o : Obj σ) (n : Str) (p : Params) (k : Str) :
    dictGet? (o.setExtraParams n p).extraParams k =
      if p ≠ [] ∧ k = extraKey n then some (.one p) else dictGet? o.extraParams k := by
  unfold Obj.setExtraParams
  by_cases hp : p = []
  · simp [hp]
  · rw [if_neg hp]
    simp only [dictGet_set_eq, ne_eq, hp, not_false_eq_true, true_and]

theorem SpanAgree.timed {a b : Core σ} (h : SpanAgree a b) (n : Str) (v : DT) (prec : Precision) (p : Params) :
    SpanAgree (a.timed n v prec p) (b.timed n v prec p) := by
  refine ⟨?_, ?_, fun k => ?_, ?_, ?_, h.dur, rfl, ?_, fun m => ?_⟩
  · simp only [Core.timed, setExtraParams_cls, h.cls]
  · simp only [Core.timed, setExtraParams_attrs, h.attrs]
  · simp only [Core.timed, dictGet_setExtraParams_eq, h.params]
  · simp only [Core.timed, h.begin_]
  · simp only [Core.timed, h.end_]
  · simp only [Core.timed, h.endName]
  · simp only [Core.timed, List.mem_append, h.seen]

theorem SpanAgree.dured {a b : Core σ} (h : SpanAgree a b) (cl : ContentLine) (d : Int) :
    SpanAgree (storeSpanDur cl d a) (storeSpanDur cl d b) := by
  refine ⟨?_, ?_, fun k => ?_, h.begin_, h.end_, rfl, h.prec, h.endName, fun m => ?_⟩
  · simp only [storeSpanDur, setExtraParams_cls, h.cls]
  · simp only [storeSpanDur, setExtraParams_attrs, h.attrs]
  · simp only [storeSpanDur, dictGet_setExtraParams_eq, h.params]
  · simp only [storeSpanDur, List.mem_append, h.seen]

theorem spanStep_congr {L : Lib} {rd : Reading σ} (hrd : SpanReading rd) {cl : ContentLine}
    (hn : cl.name ∈ Conv.timespan.names) {a a' b : Core σ} (h : SpanAgree a a')
    (hb : coreConv L rd .timespan (.line cl) a = .ok b) :
    ∃ b', coreConv L rd .timespan (.line cl) a' = .ok b' ∧ SpanAgree b b' := by
  rw [spanStep_iff hrd hn] at hb
  simp only [spanStep_iff hrd hn]
  obtain ⟨h1, h2⟩ := hb
  split at h2
  · rename_i e
    simp only [if_pos e]
    obtain ⟨d, hd, rfl⟩ := h2
    exact ⟨_, ⟨fun hm => h1 ((h.seen _).2 hm), d, hd, rfl⟩, h.dured _ _⟩
  · rename_i e
    simp only [if_neg e]
    obtain ⟨v, prec, p, hd, hq, rfl⟩ := h2
    exact ⟨_, ⟨fun hm => h1 ((h.seen _).2 hm), v, prec, p, hd, fun q e => hq q (h.prec.trans e), rfl⟩, h.timed _ _ _ _⟩

/-- The name of a line that gives the end. -/
def isEndName (n : Str) : Prop := n = "DTEND".toList ∨ n = "DUE".toList

theorem spanKey_inj {n m : Str} (hn : n ∈ Conv.timespan.names) (hm : m ∈ Conv.timespan.names) (hne : n ≠ m) :
    extraKey (spanKey n) ≠ extraKey (spanKey m) := by
  have : ∀ m ∈ Conv.timespan.names, ∀ n ∈ Conv.timespan.names, n ≠ m → extraKey (spanKey n) ≠ extraKey (spanKey m) := by
    decide +kernel
  exact this m hm n hn hne

theorem ite_swap {α : Type} {P Q : Prop} [Decidable P] [Decidable Q] (h : ¬(P ∧ Q)) (a b c : α) :
    (if P then a else if Q then b else c) = if Q then b else if P then a else c := by
  by_cases p : P <;> by_cases q : Q <;> simp_all

/-- Two lines next to each other can be exchanged, unless both give the end. -/
theorem spanStep_swap {L : Lib} {rd : Reading σ} (hrd : SpanReading rd) {x y : ContentLine}
    (hx : x.name ∈ Conv.timespan.names) (hy : y.name ∈ Conv.timespan.names) (hne : x.name ≠ y.name)
    (hex : ¬(isEndName x.name ∧ isEndName y.name)) {a a1 a2 : Core σ}
    (h1 : coreConv L rd .timespan (.line x) a = .ok a1) (h2 : coreConv L rd .timespan (.line y) a1 = .ok a2) :
    ∃ b1 b2, coreConv L rd .timespan (.line y) a = .ok b1 ∧ coreConv L rd .timespan (.line x) b1 = .ok b2 ∧
      SpanAgree a2 b2 := by
  have hk := spanKey_inj hx hy hne
  rw [spanStep_iff hrd hx] at h1
  rw [spanStep_iff hrd hy] at h2
  simp only [spanStep_iff hrd hx, spanStep_iff hrd hy]
  obtain ⟨h1, h1'⟩ := h1
  obtain ⟨h2, h2'⟩ := h2
  by_cases dx : x.name = "DURATION".toList
  · have dy : y.name ≠ "DURATION".toList := fun e => hne (dx.trans e.symm)
    rw [if_pos dx] at h1'
    rw [if_neg dy] at h2'
    simp only [if_pos dx, if_neg dy]
    obtain ⟨d, hd, rfl⟩ := h1'
    obtain ⟨v, prec, p, hv, hq, rfl⟩ := h2'
    have e : spanKey x.name = "duration".toList := by rw [dx]; decide
    rw [e] at hk
    simp only [storeSpanDur, List.mem_append, List.mem_singleton, not_or] at h2
    refine ⟨_, _, ⟨h2.1, v, prec, p, hv, hq, rfl⟩, ⟨?_, d, hd, rfl⟩, ?_⟩
    · simp only [Core.timed, List.mem_append, List.mem_singleton, not_or]
      exact ⟨h1, hne⟩
    · refine ⟨?_, ?_, fun k => ?_, rfl, rfl, rfl, rfl, rfl, fun m => ?_⟩
      · simp only [Core.timed, storeSpanDur, setExtraParams_cls]
      · simp only [Core.timed, storeSpanDur, setExtraParams_attrs]
      · simp only [Core.timed, storeSpanDur, dictGet_setExtraParams_eq]
        exact ite_swap (fun h => hk (by rw [← h.1.2, ← h.2.2])) _ _ _
      · simp only [Core.timed, storeSpanDur, List.mem_append, List.mem_singleton]
        grind
  · rw [if_neg dx] at h1'
    obtain ⟨v, prec, p, hv, hq, rfl⟩ := h1'
    by_cases dy : y.name = "DURATION".toList
    · rw [if_pos dy] at h2'
      simp only [if_neg dx, if_pos dy]
      obtain ⟨d, hd, rfl⟩ := h2'
      have e : spanKey y.name = "duration".toList := by rw [dy]; decide
      rw [e] at hk
      simp only [Core.timed, List.mem_append, List.mem_singleton, not_or] at h2
      refine ⟨_, _, ⟨h2.1, d, hd, rfl⟩, ⟨?_, v, prec, p, hv, hq, rfl⟩, ?_⟩
      · simp only [storeSpanDur, List.mem_append, List.mem_singleton, not_or]
        exact ⟨h1, hne⟩
      · refine ⟨?_, ?_, fun k => ?_, rfl, rfl, rfl, rfl, rfl, fun m => ?_⟩
        · simp only [Core.timed, storeSpanDur, setExtraParams_cls]
        · simp only [Core.timed, storeSpanDur, setExtraParams_attrs]
        · simp only [Core.timed, storeSpanDur, dictGet_setExtraParams_eq]
          exact ite_swap (fun h => hk (by rw [← h.1.2, ← h.2.2])) _ _ _
        · simp only [Core.timed, storeSpanDur, List.mem_append, List.mem_singleton]
          grind
    · rw [if_neg dy] at h2'
      simp only [if_neg dx, if_neg dy]
      obtain ⟨v', prec', p', hv', hq', rfl⟩ := h2'
      have e : prec' = prec := (hq' prec rfl).symm
      subst e
      simp only [Core.timed, List.mem_append, List.mem_singleton, not_or] at h2
      refine ⟨_, _, ⟨h2.1, v', prec', p', hv', hq, rfl⟩, ⟨?_, v, prec', p, hv, ?_, rfl⟩, ?_⟩
      · simp only [Core.timed, List.mem_append, List.mem_singleton, not_or]
        exact ⟨h1, hne⟩
      · rintro q hq
        cases hq
        rfl
      · have hone : x.name = "DTSTART".toList ∧ y.name ≠ "DTSTART".toList ∨
            x.name ≠ "DTSTART".toList ∧ y.name = "DTSTART".toList := by
          by_cases e1 : x.name = "DTSTART".toList
          · exact Or.inl ⟨e1, fun e2 => hne (e1.trans e2.symm)⟩
          · refine Or.inr ⟨e1, ?_⟩
            by_contra e2
            have : ∀ n ∈ Conv.timespan.names, n ≠ "DTSTART".toList → n ≠ "DURATION".toList →
                n = "DTEND".toList ∨ n = "DUE".toList := by decide
            exact hex ⟨this _ hx e1 dx, this _ hy e2 dy⟩
        refine ⟨?_, ?_, fun k => ?_, ?_, ?_, rfl, rfl, ?_, fun m => ?_⟩
        · simp only [Core.timed, setExtraParams_cls]
        · simp only [Core.timed, setExtraParams_attrs]
        · simp only [Core.timed, dictGet_setExtraParams_eq]
          exact ite_swap (fun h => hk (by rw [← h.1.2, ← h.2.2])) _ _ _
        · simp only [Core.timed]
          rcases hone with ⟨e1, e2⟩ | ⟨e1, e2⟩
          · simp only [if_pos e1, if_neg e2]
          · simp only [if_neg e1, if_pos e2]
        · simp only [Core.timed]
          rcases hone with ⟨e1, e2⟩ | ⟨e1, e2⟩
          · simp only [if_pos e1, if_neg e2]
          · simp only [if_neg e1, if_pos e2]
        · simp only [Core.timed]
          rcases hone with ⟨e1, e2⟩ | ⟨e1, e2⟩
          · simp only [if_pos e1, if_neg e2]
          · simp only [if_neg e1, if_pos e2]
        · simp only [Core.timed, List.mem_append, List.mem_singleton]
          grind

theorem spanItem_line {L : Lib} {rd : Reading σ} {i : Item} {a b : Core σ}
    (h : coreConv L rd .timespan i a = .ok b) : ∃ cl, i = .line cl := by
  cases i with
  | line cl => exact ⟨cl, rfl⟩
  | cont n is => cases h

theorem foldSpan_congr {L : Lib} {rd : Reading σ} (hrd : SpanReading rd) {items : List Item}
    (hn : ∀ i ∈ items, i.name ∈ Conv.timespan.names) {a a' b : Core σ} (h : SpanAgree a a')
    (hb : foldConv L rd .timespan items a = .ok b) :
    ∃ b', foldConv L rd .timespan items a' = .ok b' ∧ SpanAgree b b' := by
  induction items generalizing a a' with
  | nil =>
    cases hb
    exact ⟨a', rfl, h⟩
  | cons i is ih =>
    simp only [foldConv, bind_ok_iff] at hb ⊢
    obtain ⟨a1, h1, h2⟩ := hb
    obtain ⟨cl, rfl⟩ := spanItem_line h1
    obtain ⟨a1', h1', hag⟩ := spanStep_congr hrd (hn _ List.mem_cons_self) h h1
    obtain ⟨b', h2', hb'⟩ := ih (fun i hi => hn i (List.mem_cons_of_mem _ hi)) hag h2
    exact ⟨b', ⟨a1', h1', h2'⟩, hb'⟩

theorem OneEnd.subset {xs ys : List Item} (h : OneEnd xs) (hs : ∀ i ∈ ys, i ∈ xs) : OneEnd ys :=
  fun ⟨⟨i, hi, h1⟩, j, hj, h2⟩ => h ⟨⟨i, hs i hi, h1⟩, j, hs j hj, h2⟩

theorem foldSpan_perm {L : Lib} {rd : Reading σ} (hrd : SpanReading rd) {xs ys : List Item} (hp : xs.Perm ys)
    (hn : ∀ i ∈ xs, i.name ∈ Conv.timespan.names) (he : OneEnd xs) {a b : Core σ}
    (hb : foldConv L rd .timespan xs a = .ok b) :
    ∃ b', foldConv L rd .timespan ys a = .ok b' ∧ SpanAgree b b' := by
  induction hp generalizing a b with
  | nil => exact ⟨b, hb, .refl _⟩
  | cons i hp ih =>
    simp only [foldConv, bind_ok_iff] at hb ⊢
    obtain ⟨a1, h1, h2⟩ := hb
    obtain ⟨b', h, hag⟩ := ih (fun i hi => hn i (List.mem_cons_of_mem _ hi))
      (he.subset fun i hi => List.mem_cons_of_mem _ hi) h2
    exact ⟨b', ⟨a1, h1, h⟩, hag⟩
  | swap x y l =>
    simp only [foldConv, bind_ok_iff] at hb
    obtain ⟨a1, h1, a2, h2, h3⟩ := hb
    obtain ⟨y, rfl⟩ := spanItem_line h1
    obtain ⟨x, rfl⟩ := spanItem_line h2
    have hny : y.name ∈ Conv.timespan.names := hn (.line y) List.mem_cons_self
    have hnx : x.name ∈ Conv.timespan.names := hn (.line x) (by simp)
    have hne : y.name ≠ x.name := by
      have k1 := (spanStep_iff hrd hny).1 h1
      have k2 := (spanStep_iff hrd hnx).1 h2
      intro e
      refine k2.1 ?_
      rw [← e]
      have := k1.2
      split at this
      · obtain ⟨d, _, rfl⟩ := this
        simp [storeSpanDur]
      · obtain ⟨v, prec, p, _, _, rfl⟩ := this
        simp [Core.timed]
    have hex : ¬(isEndName y.name ∧ isEndName x.name) := by
      rintro ⟨e1 | e1, e2 | e2⟩
      · exact hne (e1.trans e2.symm)
      · exact he ⟨⟨.line y, by simp, e1⟩, .line x, by simp, e2⟩
      · exact he ⟨⟨.line x, by simp, e2⟩, .line y, by simp, e1⟩
      · exact hne (e1.trans e2.symm)
    obtain ⟨b1, b2, k1, k2, hag⟩ := spanStep_swap hrd hny hnx hne hex h1 h2
    obtain ⟨b', h, hag'⟩ := foldSpan_congr hrd
      (fun i hi => hn i (List.mem_cons_of_mem _ (List.mem_cons_of_mem _ hi))) hag h3
    refine ⟨b', ?_, hag'⟩
    simp only [foldConv, bind_ok_iff]
    exact ⟨b1, k1, b2, k2, h⟩
  | trans p1 p2 ih1 ih2 =>
    obtain ⟨b1, h1, k1⟩ := ih1 hn he hb
    obtain ⟨b2, h2, k2⟩ := ih2 (fun i hi => hn i (p1.mem_iff.2 hi)) (he.subset fun i hi => p1.mem_iff.2 hi) h1
    exact ⟨b2, h2, k1.trans k2⟩

/-! ### All converters -/

theorem reordered_perm {xs ys : List Item} (h : Reordered xs ys) : xs.Perm ys := by
  rw [List.perm_iff_count]
  intro i
  have e : ∀ l : List Item, l.count i = (l.filter fun j => j.name = i.name).count i := by
    intro l
    rw [List.count_filter]
    simp
  rw [e xs, e ys, h i.name]

theorem own_reordered {xs ys : List Item} (h : Reordered xs ys) {cv : Conv} (hcv : cv ≠ .timespan) :
    cv.own xs = cv.own ys := by
  have e : ∀ n, cv.names = [n] → cv.own xs = cv.own ys := by
    intro n hn
    unfold Conv.own
    rw [hn]
    simpa using h n
  cases cv with
  | timespan => exact absurd rfl hcv
  | value s => exact e _ rfl
  | member a n => exact e _ rfl
  | alarmAction => exact e _ rfl
  | calendarTimezone => exact e _ rfl

/-- What no converter handles stays. -/
theorem coreItem_untouched {L : Lib} {rd : Reading σ} {item : Item} {a a' : Core σ}
    (h : coreItem L rd item a = .ok a') :
    (∀ k, (∀ cv ∈ a.obj.cls.convs, k ∉ cv.attrKeys) →
      dictGet? a'.obj.attrs k = dictGet? a.obj.attrs k ∧ dictGet? a'.counts k = dictGet? a.counts k) ∧
    (∀ k, (∀ cv ∈ a.obj.cls.convs, k ∉ cv.paramKeys) →
      dictGet? a'.obj.extraParams k = dictGet? a.obj.extraParams k) := by
  rw [coreItem, map_ok_iff] at h
  obtain ⟨a1, h1, rfl⟩ := h
  have main : ∀ (cvs : List Conv) (b b' : Core σ), coreConvs L rd item cvs b = .ok b' →
      (∀ k, (∀ cv ∈ cvs, k ∉ cv.attrKeys) →
        dictGet? b'.obj.attrs k = dictGet? b.obj.attrs k ∧ dictGet? b'.counts k = dictGet? b.counts k) ∧
      (∀ k, (∀ cv ∈ cvs, k ∉ cv.paramKeys) →
        dictGet? b'.obj.extraParams k = dictGet? b.obj.extraParams k) := by
    intro cvs
    induction cvs with
    | nil =>
      intro b b' h
      cases h
      exact ⟨fun _ _ => ⟨rfl, rfl⟩, fun _ _ => rfl⟩
    | cons cv cvs ih =>
      intro b b' h
      simp only [coreConvs, bind_ok_iff] at h
      obtain ⟨b1, h1, h2⟩ := h
      have o := coreConv_outside h1
      have i := ih _ _ h2
      refine ⟨fun k hk => ?_, fun k hk => ?_⟩
      · have q := i.1 k fun cv h => hk cv (List.mem_cons_of_mem _ h)
        exact ⟨q.1.trans (o.attrs k (hk cv List.mem_cons_self)), q.2.trans (o.counts k (hk cv List.mem_cons_self))⟩
      · exact (i.2 k fun cv h => hk cv (List.mem_cons_of_mem _ h)).trans (o.params k (hk cv List.mem_cons_self))
  have q := main _ _ _ h1
  have e : ∀ b : Core σ, (b.keep item).obj.attrs = b.obj.attrs ∧ (b.keep item).counts = b.counts ∧
      (b.keep item).obj.extraParams = b.obj.extraParams := by
    intro b
    unfold Core.keep
    split <;> exact ⟨rfl, rfl, rfl⟩
  refine ⟨fun k hk => ?_, fun k hk => ?_⟩
  · rw [(e a1).1, (e a1).2.1]
    exact q.1 k fun cv hc => hk cv (lookup_mem.1 hc).1
  · rw [(e a1).2.2]
    exact q.2 k fun cv hc => hk cv (lookup_mem.1 hc).1

theorem coreItems_untouched {L : Lib} {rd : Reading σ} {items : List Item} {a a' : Core σ}
    (h : coreItems L rd items a = .ok a') :
    (∀ k, (∀ cv ∈ a.obj.cls.convs, k ∉ cv.attrKeys) →
      dictGet? a'.obj.attrs k = dictGet? a.obj.attrs k ∧ dictGet? a'.counts k = dictGet? a.counts k) ∧
    (∀ k, (∀ cv ∈ a.obj.cls.convs, k ∉ cv.paramKeys) →
      dictGet? a'.obj.extraParams k = dictGet? a.obj.extraParams k) := by
  induction items generalizing a with
  | nil =>
    cases h
    exact ⟨fun _ _ => ⟨rfl, rfl⟩, fun _ _ => rfl⟩
  | cons i is ih =>
    simp only [coreItems, bind_ok_iff] at h
    obtain ⟨a1, h1, h2⟩ := h
    have q := coreItem_untouched h1
    have r := ih h2
    rw [coreItem_cls h1] at r
    exact ⟨fun k hk => ⟨(r.1 k hk).1.trans (q.1 k hk).1, (r.1 k hk).2.trans (q.1 k hk).2⟩,
      fun k hk => (r.2 k hk).trans (q.2 k hk)⟩

/-- Two states with the same content. -/
structure FullAgree (a b : Core σ) : Prop where
  cls : a.obj.cls = b.obj.cls
  attrs : ∀ k, dictGet? a.obj.attrs k = dictGet? b.obj.attrs k
  params : ∀ k, dictGet? a.obj.extraParams k = dictGet? b.obj.extraParams k
  counts : ∀ k, dictGet? a.counts k = dictGet? b.counts k
  begin_ : a.span.begin? = b.span.begin?
  end_ : a.span.end? = b.span.end?
  dur : a.span.dur? = b.span.dur?
  prec : a.span.prec? = b.span.prec?
  endName : a.span.endName? = b.span.endName?

theorem coreItems_noSpan {L : Lib} {rd : Reading σ} {items : List Item} {a a' : Core σ}
    (ht : Conv.timespan ∉ a.obj.cls.convs) (h : coreItems L rd items a = .ok a') : a'.span = a.span := by
  have main : ∀ (item : Item) (cvs : List Conv) (b b' : Core σ), .timespan ∉ cvs →
      coreConvs L rd item cvs b = .ok b' → b'.span = b.span := by
    intro item cvs
    induction cvs with
    | nil =>
      intro b b' _ h
      cases h
      rfl
    | cons cv cvs ih =>
      intro b b' ht h
      simp only [coreConvs, bind_ok_iff] at h
      obtain ⟨b1, h1, h2⟩ := h
      refine (ih _ _ (fun hm => ht (List.mem_cons_of_mem _ hm)) h2).trans ((coreConv_outside h1).span ?_)
      cases cv with
      | timespan => exact absurd List.mem_cons_self ht
      | _ => rfl
  induction items generalizing a with
  | nil =>
    cases h
    rfl
  | cons i is ih =>
    simp only [coreItems, bind_ok_iff] at h
    obtain ⟨a1, h1, h2⟩ := h
    have e := ih (by rw [coreItem_cls h1]; exact ht) h2
    rw [coreItem, map_ok_iff] at h1
    obtain ⟨a0, h1, rfl⟩ := h1
    rw [e]
    have := main i _ _ _ (fun hm => ht (lookup_mem.1 hm).1) h1
    rw [← this]
    unfold Core.keep
    split <;> rfl

/-- Reordered lines are loaded as the same component. -/
theorem coreItems_reordered {L : Lib} {rd : Reading σ} (hrd : SpanReading rd) {c : Cls} {xs ys : List Item}
    (hr : Reordered xs ys) (he : .timespan ∈ c.convs → OneEnd xs) {a : Core σ}
    (h : coreItems L rd xs (.new L c) = .ok a) :
    ∃ b, coreItems L rd ys (.new L c) = .ok b ∧ FullAgree a b := by
  have hspan : ∀ b, .timespan ∈ c.convs →
      foldConv L rd .timespan (Conv.own .timespan xs) (.new L c) = .ok b →
      ∃ b', foldConv L rd .timespan (Conv.own .timespan ys) (.new L c) = .ok b' ∧ SpanAgree b b' := by
    intro b ht hb
    refine foldSpan_perm hrd ((reordered_perm hr).filter _) (fun i hi => ?_) ?_ hb
    · simpa using (List.mem_filter.1 hi).2
    · exact (he ht).subset fun i hi => (List.mem_filter.1 hi).1
  obtain ⟨b, hb⟩ : ∃ b, coreItems L rd ys (.new L c) = .ok b := by
    refine coreItems_ok fun cv hcv => ?_
    obtain ⟨d, hd, _⟩ := coreItems_agree h hcv
    by_cases hne : cv = .timespan
    · subst hne
      obtain ⟨d', hd', _⟩ := hspan d hcv hd
      exact ⟨d', hd'⟩
    · rw [← own_reordered hr hne]
      exact ⟨d, hd⟩
  refine ⟨b, hb, ?_⟩
  have hagree : ∀ cv ∈ c.convs, cv ≠ .timespan → Agree cv a b := by
    intro cv hcv hne
    obtain ⟨d, hd, hda⟩ := coreItems_agree h (cv := cv) hcv
    obtain ⟨d', hd', hdb⟩ := coreItems_agree hb (cv := cv) hcv
    rw [← own_reordered hr hne, hd] at hd'
    cases hd'
    exact hda.symm.trans hdb
  have hsa : .timespan ∈ c.convs →
      (∀ k ∈ Conv.timespan.attrKeys, dictGet? a.obj.attrs k = dictGet? b.obj.attrs k ∧
        dictGet? a.counts k = dictGet? b.counts k) ∧
      (∀ k ∈ Conv.timespan.paramKeys, dictGet? a.obj.extraParams k = dictGet? b.obj.extraParams k) ∧
      a.span.begin? = b.span.begin? ∧ a.span.end? = b.span.end? ∧ a.span.dur? = b.span.dur? ∧
      a.span.prec? = b.span.prec? ∧ a.span.endName? = b.span.endName? := by
    intro ht
    obtain ⟨d, hd, hda⟩ := coreItems_agree h (cv := .timespan) ht
    obtain ⟨d', hd', hdb⟩ := coreItems_agree hb (cv := .timespan) ht
    obtain ⟨d'', hd'', hag⟩ := hspan d ht hd
    rw [hd'] at hd''
    cases hd''
    have e1 := hda.span rfl
    have e2 := hdb.span rfl
    have hcnt : ∀ (is : List Item) (k k' : Core σ), foldConv L rd .timespan is k = .ok k' → k'.counts = k.counts := by
      intro is
      induction is with
      | nil =>
        intro k k' h
        cases h
        rfl
      | cons i is ih =>
        intro k k' h
        simp only [foldConv, bind_ok_iff] at h
        obtain ⟨k1, h1, h2⟩ := h
        rw [ih _ _ h2]
        obtain ⟨cl, rfl⟩ := spanItem_line h1
        simp only [coreConv, bind_ok_iff] at h1
        obtain ⟨_, _, d, _, h1⟩ := h1
        cases d with
        | spanTime v prec p =>
          simp only [storeConv, storeSpanTime, bind_ok_iff] at h1
          obtain ⟨_, _, h1⟩ := h1
          split at h1 <;> cases h1 <;> rfl
        | spanDur d =>
          cases h1
          rfl
        | _ => cases h1
    refine ⟨fun k hk => ⟨?_, ?_⟩, fun k hk => ?_, ?_, ?_, ?_, ?_, ?_⟩
    · have := List.mem_singleton.1 hk
      subst this
      rw [← hda.attrs _ hk, ← hdb.attrs _ hk, hag.attrs]
    · rw [← hda.counts _ hk, ← hdb.counts _ hk, hcnt _ _ _ hd, hcnt _ _ _ hd']
    · rw [← hda.params _ hk, ← hdb.params _ hk, hag.params]
    · rw [← e1, ← e2, hag.begin_]
    · rw [← e1, ← e2, hag.end_]
    · rw [← e1, ← e2, hag.dur]
    · rw [← e1, ← e2, hag.prec]
    · rw [← e1, ← e2, hag.endName]
  have ua := coreItems_untouched h
  have ub := coreItems_untouched hb
  have hspans : a.span.begin? = b.span.begin? ∧ a.span.end? = b.span.end? ∧ a.span.dur? = b.span.dur? ∧
      a.span.prec? = b.span.prec? ∧ a.span.endName? = b.span.endName? := by
    by_cases ht : .timespan ∈ c.convs
    · exact (hsa ht).2.2
    · rw [coreItems_noSpan ht h, coreItems_noSpan ht hb]
      exact ⟨rfl, rfl, rfl, rfl, rfl⟩
  refine ⟨(coreItems_cls h).trans (coreItems_cls hb).symm, fun k => ?_, fun k => ?_, fun k => ?_, hspans.1,
    hspans.2.1, hspans.2.2.1, hspans.2.2.2.1, hspans.2.2.2.2⟩
  · by_cases hk : ∃ cv ∈ c.convs, k ∈ cv.attrKeys
    · obtain ⟨cv, hcv, hk⟩ := hk
      by_cases hne : cv = .timespan
      · subst hne
        exact ((hsa hcv).1 k hk).1
      · exact (hagree cv hcv hne).attrs k hk
    · simp only [not_exists, not_and] at hk
      rw [(ua.1 k hk).1, (ub.1 k hk).1]
  · by_cases hk : ∃ cv ∈ c.convs, k ∈ cv.paramKeys
    · obtain ⟨cv, hcv, hk⟩ := hk
      by_cases hne : cv = .timespan
      · subst hne
        exact (hsa hcv).2.1 k hk
      · exact (hagree cv hcv hne).params k hk
    · simp only [not_exists, not_and] at hk
      rw [ua.2 k hk, ub.2 k hk]
  · by_cases hk : ∃ cv ∈ c.convs, k ∈ cv.attrKeys
    · obtain ⟨cv, hcv, hk⟩ := hk
      by_cases hne : cv = .timespan
      · subst hne
        exact ((hsa hcv).1 k hk).2
      · exact (hagree cv hcv hne).counts k hk
    · simp only [not_exists, not_and] at hk
      rw [(ua.1 k hk).2, (ub.1 k hk).2]

theorem corePost_congr {L : Lib} {cv : Conv} {a a' b : Core σ} (h : FullAgree a a')
    (hb : corePost L cv a = .ok b) : ∃ b', corePost L cv a' = .ok b' ∧ FullAgree b b' := by
  unfold corePost at hb ⊢
  rw [map_ok_iff] at hb
  obtain ⟨st, hb, rfl⟩ := hb
  unfold Conv.post at hb ⊢
  cases cv with
  | value s =>
    have e : (a'.state none).count s.attr = (a.state none).count s.attr := by
      show (dictGet? a'.counts s.attr).getD 0 = (dictGet? a.counts s.attr).getD 0
      rw [h.counts]
    dsimp only at hb ⊢
    rw [e]
    split at hb
    · cases hb
    · rename_i hc
      rw [if_neg hc]
      cases hb
      refine ⟨_, rfl, h.cls, h.attrs, h.params, fun k => ?_, h.begin_, h.end_, h.dur, h.prec, h.endName⟩
      simp only [LState.core, Core.state, dictGet_set_eq, h.counts]
  | timespan =>
    simp only [postSpan, Obj.setattr, bind_ok_iff, map_ok_iff] at hb
    obtain ⟨s, h1, _, h2, o, ⟨v, h3, rfl⟩, h4⟩ := hb
    cases h4
    have e1 : (a.state none).obj.cls = (a'.state none).obj.cls := h.cls
    have e2 : (a.state none).span.begin? = (a'.state none).span.begin? := h.begin_
    have e3 : (a.state none).span.end? = (a'.state none).span.end? := h.end_
    have e4 : (a.state none).span.dur? = (a'.state none).span.dur? := h.dur
    have e5 : (a.state none).span.prec? = (a'.state none).span.prec? := h.prec
    have e6 : (a.state none).span.endName? = (a'.state none).span.endName? := h.endName
    rw [e1, e2, e3, e4, e5] at h1
    rw [e1, e6] at h2
    rw [e1] at h3
    refine ⟨⟨{ a'.obj with attrs := dictSet a'.obj.attrs "timespan".toList v }, a'.counts, {}⟩, ?_,
      h.cls, fun k => ?_, h.params, h.counts, rfl, rfl, rfl, rfl, rfl⟩
    · simp only [postSpan, Obj.setattr, h1, h2, h3, bind, Except.bind, Except.map]
      rfl
    · simp only [LState.core, Core.state, dictGet_set_eq, h.attrs]
  | member _ _ => cases hb; exact ⟨_, rfl, h⟩
  | alarmAction => cases hb; exact ⟨_, rfl, h⟩
  | calendarTimezone => cases hb; exact ⟨_, rfl, h⟩

theorem corePostAll_congr {L : Lib} {cvs : List Conv} {a a' b : Core σ} (h : FullAgree a a')
    (hb : corePostAll L cvs a = .ok b) : ∃ b', corePostAll L cvs a' = .ok b' ∧ FullAgree b b' := by
  induction cvs generalizing a a' with
  | nil =>
    cases hb
    exact ⟨_, rfl, h⟩
  | cons cv cvs ih =>
    simp only [corePostAll, bind_ok_iff] at hb ⊢
    obtain ⟨a1, h1, h2⟩ := hb
    obtain ⟨a1', h1', k⟩ := corePost_congr h h1
    obtain ⟨b', h2', k'⟩ := ih k h2
    exact ⟨b', ⟨a1', h1', h2'⟩, k'⟩

/-- Reordered lines are loaded as the same component. -/
theorem load_reordered {L : Lib} {mem : MemberLoad σ} (hm : MemStable L mem) {zones : List (Str × Nat)} {c : Cls}
    {xs ys : List Item} (hr : Reordered xs ys) (he : .timespan ∈ c.convs → OneEnd xs) {o : Obj σ} {ctx : Ctx}
    (h : loadObj L mem c xs (some zones) = .ok (o, ctx)) :
    ∃ o' ctx', loadObj L mem c ys (some zones) = .ok (o', ctx') ∧ SameAttrs o o' ∧
      o.extra = xs.filter (unhandled c) ∧ o'.extra = ys.filter (unhandled c) := by
  obtain ⟨rd, hrd⟩ := exists_reading hm (L.toWorld.resolve (some zones))
  have k := loadObj_core hrd c xs rfl rfl
  have k' := loadObj_core hrd c ys rfl rfl
  unfold Outcome at k k'
  cases ho : coreLoad L rd c xs with
  | error e =>
    rw [ho] at k
    rw [k] at h
    cases h
  | ok o1 =>
    rw [ho] at k
    obtain ⟨ctx1, k, _⟩ := k
    have hx := h
    rw [k] at h
    cases h
    simp only [coreLoad, bind_ok_iff, map_ok_iff] at ho
    obtain ⟨a, ha, a', ha', rfl⟩ := ho
    obtain ⟨b, hb, hab⟩ := coreItems_reordered (spanReading hrd) hr he ha
    obtain ⟨b', hb', hab'⟩ := corePostAll_congr hab ha'
    have hy : coreLoad L rd c ys = .ok b'.obj := by
      simp only [coreLoad, bind_ok_iff, map_ok_iff]
      exact ⟨b, hb, b', hb', rfl⟩
    rw [hy] at k'
    obtain ⟨ctx2, k', _⟩ := k'
    have f := loadObj_frame hx
    have f' := loadObj_frame k'
    exact ⟨_, ctx2, k', ⟨hab'.cls, fun k => hab'.attrs k, fun k => hab'.params k, f.2.1.trans f'.2.1.symm⟩,
      f.2.2, f'.2.2⟩

end Ics
